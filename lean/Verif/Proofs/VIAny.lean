import Verif.Proofs.VIRun
/-! # Proofs about value iteration with a heuristic that need not be consistent -/

namespace Sbpl
namespace VI
open MDP VISpec

variable {env : VEnv} {goal start : Int}

/-- what holds between backups for any heuristic that is not negative and zero at the goal -/
structure Wk (env : VEnv) (goal : Int) (p : St) : Prop where
  goal0 : p.v goal = 0
  nonneg : ∀ s, 0 ≤ p.v s
  best : ∀ s a, p.best s = some a → s ≠ goal ∧ a ∈ env.acts s

theorem Wk.of_eq {p q : St} (h : Wk env goal p) (hv : q.v = p.v) (hb : q.best = p.best) : Wk env goal q := by
  refine ⟨?_, ?_, ?_⟩
  · rw [hv]; exact h.goal0
  · rw [hv]; exact h.nonneg
  · rw [hb]; exact h.best

/-- the effect of one backup -/
structure BWk (env : VEnv) (goal s : Int) (p : St) (b : ℚ) (p' : St) (b' : ℚ) : Prop where
  sub : Wk env goal p'
  frame : ∀ t, t ≠ s → p'.v t = p.v t ∧ p'.best t = p.best t
  iter : p'.iter = p.iter
  iteration : p'.iteration = p.iteration
  value : s = goal ∨ env.acts s = [] ∨ ∃ a ∈ env.acts s, p'.v s = Q p.v a ∧ ∀ x ∈ env.acts s, Q p.v a ≤ Q p.v x
  bell : b' ≤ ERRDELTA → b ≤ ERRDELTA
  small : b' ≤ ERRDELTA → |p'.v s - p.v s| ≤ ERRDELTA ∧ (s = goal ∨ ∃ a ∈ env.acts s, p'.best s = some a ∧ p'.v s = Q p.v a)

theorem Q_nonneg (hp : Proper env.acts) {v : Int → ℚ} (h : ∀ s, 0 ≤ v s) {s : Int} {a : Action} (ha : a ∈ env.acts s) : 0 ≤ Q v a :=
  expect_nonneg (hp.prob s a ha) (fun o ho => by
    have h1 : (0 : ℚ) ≤ (o.2.1 : ℚ) := by exact_mod_cast hp.cost s a ha o ho
    have := h o.1
    linarith)

theorem backup_wk (hp : Proper env.acts) {s : Int} {p : St} {b : ℚ} (hs : Wk env goal p) :
    BWk env goal s p b (backup env goal s p b).1 (backup env goal s p b).2 := by
  have hinf := err_lt_inf
  have hpos := err_pos
  unfold backup
  by_cases hg : s = goal
  · rw [if_pos hg]
    subst hg
    have hv : ∀ t, updI p.v s 0 t = p.v t := by
      intro t
      by_cases e : t = s
      · subst e; rw [updI_self, hs.goal0]
      · rw [updI_ne e]
    refine ⟨⟨updI_self, ?_, ?_⟩, ?_, rfl, rfl, Or.inl rfl, fun h => h, fun _ => ⟨?_, Or.inl rfl⟩⟩
    · intro t; dsimp only; rw [hv]; exact hs.nonneg t
    · intro t a h
      dsimp only at h
      by_cases e : t = s
      · subst e; rw [updI_self] at h; exact absurd h (by simp)
      · rw [updI_ne e] at h; exact hs.best t a h
    · intro t e; exact ⟨hv t, updI_ne e⟩
    · dsimp only; rw [hv]; simpa using hpos.le
  · rw [if_neg hg]
    dsimp only
    rcases minLoop_spec p.v (env.acts s) with ⟨he, hm⟩ | ⟨a, ha, hm, hmin⟩
    · rw [hm]
      dsimp only
      have hbn : (p.best s).isNone = true := by
        cases hb : p.best s with
        | none => rfl
        | some a => have := (hs.best s a hb).2; rw [he] at this; exact absurd this (by simp)
      rw [if_pos hbn]
      refine ⟨⟨?_, ?_, ?_⟩, ?_, rfl, rfl, Or.inr (Or.inl he), fun h => absurd h (not_le.mpr hinf), fun h => absurd h (not_le.mpr hinf)⟩
      · dsimp only; rw [updI_ne (Ne.symm hg)]; exact hs.goal0
      · intro t
        dsimp only
        by_cases e : t = s
        · subst e; rw [updI_self]; exact_mod_cast Nat.zero_le _
        · rw [updI_ne e]; exact hs.nonneg t
      · intro t a h
        dsimp only at h
        by_cases e : t = s
        · subst e; rw [updI_self] at h; exact absurd h (by simp)
        · rw [updI_ne e] at h; exact hs.best t a h
      · intro t e; exact ⟨updI_ne e, updI_ne e⟩
    · rw [hm]
      dsimp only
      refine ⟨⟨?_, ?_, ?_⟩, ?_, rfl, rfl, Or.inr (Or.inr ⟨a, ha, updI_self, hmin⟩), ?_, ?_⟩
      · dsimp only; rw [updI_ne (Ne.symm hg)]; exact hs.goal0
      · intro t
        dsimp only
        by_cases e : t = s
        · subst e; rw [updI_self]; exact Q_nonneg hp hs.nonneg ha
        · rw [updI_ne e]; exact hs.nonneg t
      · intro t x h
        dsimp only at h
        by_cases e : t = s
        · subst e; rw [updI_self] at h; cases h; exact ⟨hg, ha⟩
        · rw [updI_ne e] at h; exact hs.best t x h
      · intro t e; exact ⟨updI_ne e, updI_ne e⟩
      · intro h
        split_ifs at h with c1 c2
        · exact absurd h (not_le.mpr hinf)
        · linarith
        · exact h
      · intro h
        refine ⟨?_, Or.inr ⟨a, ha, updI_self, updI_self⟩⟩
        dsimp only
        rw [updI_self, abs_sub_comm]
        split_ifs at h with c1 c2
        · exact absurd h (not_le.mpr hinf)
        · exact h
        · linarith

/-- expansion of a state: backup, then the outcomes of the best action are pushed -/
theorem expand_wk {s : Int} {p1 : St} {wl : List Int} (hs : Wk env goal p1) :
    ∃ os, PSpec os p1 wl (pushRep (p1.best s) (env.acts s).length p1 wl).1 (pushRep (p1.best s) (env.acts s).length p1 wl).2 ∧
      (p1.best s = none ∧ os = [] ∨ ∃ a ∈ env.acts s, p1.best s = some a ∧ os = a.outs) := by
  cases hb : p1.best s with
  | none => rw [pushRep_none]; exact ⟨[], pspec_refl (by simp), Or.inl ⟨rfl, rfl⟩⟩
  | some a =>
    have ha := (hs.best s a hb).2
    rw [pushRep_some (by
      intro e
      rw [List.length_eq_zero_iff] at e
      rw [e] at ha
      exact absurd ha (by simp))]
    exact ⟨a.outs, pushLoop_spec, Or.inr ⟨a, ha, rfl, rfl⟩⟩

/-- the state of a pass after the first expansion: `D` has been expanded since, `wl` is still to be expanded -/
structure PJ (env : VEnv) (goal : Int) (T : Int → Prop) (v0 : Int → ℚ) (p : St) (wl D : List Int) : Prop where
  sub : Wk env goal p
  nodup : (D ++ wl).Nodup
  mark : ∀ t, p.iter t = p.iteration ↔ t ∈ D ++ wl
  le : ∀ t, p.iter t ≤ p.iteration
  cl : ∀ t ∈ D ++ wl, T t

/-- an expanded state: the goal, or one whose best action was at most as good before the pass, and whose outcomes have been marked -/
def OkW (env : VEnv) (goal : Int) (v0 : Int → ℚ) (p : St) (s : Int) : Prop :=
  s = goal ∨ ∃ a ∈ env.acts s, p.best s = some a ∧ Q v0 a ≤ p.v s + 1 / 50 ∧ ∀ o ∈ a.outs, p.iter o.1 = p.iteration

/-- what holds if all changes so far are small -/
structure CJ (env : VEnv) (goal start : Int) (v0 : Int → ℚ) (p : St) (D : List Int) : Prop where
  up : ∀ t, |p.v t - v0 t| ≤ (if t ∈ D then ERRDELTA else 0) + (if t = start then ERRDELTA else 0)
  ok : ∀ s, s = start ∨ s ∈ D → OkW env goal v0 p s

/-- an expansion in the second phase -/
theorem step_wk (hp : Proper env.acts) {T : Int → Prop} (hT : ∀ s, T s → ∀ a ∈ env.acts s, ∀ o ∈ a.outs, T o.1)
    {v0 : Int → ℚ} {p : St} {b : ℚ} {s : Int} {wl D : List Int} (hi : PJ env goal T v0 p (s :: wl) D)
    {p1 : St} {b' : ℚ} (hb : backup env goal s p b = (p1, b')) {p2 : St} {wl2 : List Int} (hq : pushRep (p1.best s) (env.acts s).length p1 wl = (p2, wl2)) :
    PJ env goal T v0 p2 wl2 (D ++ [s]) ∧ ((b ≤ ERRDELTA → CJ env goal start v0 p D) → b' ≤ ERRDELTA → CJ env goal start v0 p2 (D ++ [s])) ∧ p2.iteration = p.iteration := by
  have hB := backup_wk (s := s) (b := b) hp hi.sub
  rw [hb] at hB
  dsimp only at hB
  obtain ⟨os, hP, hos⟩ := expand_wk (s := s) (wl := wl) hB.sub
  rw [hq] at hP
  dsimp only at hP
  obtain ⟨new, hn1, hn2, hn3⟩ := hP.wl
  have hTs : T s := hi.cl s (by simp)
  have hmk : ∀ t, p2.iter t = p2.iteration ↔ t ∈ (D ++ [s]) ++ wl2 := by
    intro t
    rw [hP.iteration, hn1]
    have h0 := hi.mark t
    rw [← hB.iter, ← hB.iteration] at h0
    constructor
    · intro h
      rcases hP.iter t with e | ⟨_, _, e⟩
      · rw [e] at h
        have := h0.mp h
        simp only [List.mem_append, List.mem_cons, List.mem_singleton] at this ⊢
        tauto
      · rw [hn1] at e
        simp only [List.mem_append, List.mem_singleton] at e ⊢
        tauto
    · intro h
      by_cases hnew : t ∈ new
      · exact (hn3 t hnew).2.1
      · have : t ∈ D ++ s :: wl := by
          simp only [List.mem_append, List.mem_cons, List.mem_singleton] at h ⊢
          tauto
        have := h0.mpr this
        rcases hP.iter t with e | ⟨e, _⟩
        · rw [e, this]
        · exact e
  refine ⟨⟨hB.sub.of_eq hP.v hP.best, ?_, hmk, ?_, ?_⟩, ?_, hP.iteration.trans hB.iteration⟩
  · rw [hn1]
    have h1 := hi.nodup
    rw [List.nodup_append] at h1
    obtain ⟨a1, a2, a3⟩ := h1
    rw [List.nodup_cons] at a2
    have hnot : ∀ t ∈ new, t ∉ D ++ s :: wl := by
      intro t ht h
      have := (hi.mark t).mpr h
      rw [← hB.iter, ← hB.iteration] at this
      exact (hn3 t ht).1 this
    rw [List.nodup_append, List.nodup_append, List.nodup_append]
    refine ⟨⟨a1, by simp, ?_⟩, ⟨hn2, a2.2, ?_⟩, ?_⟩
    · intro x hx y hy
      rw [List.mem_singleton] at hy
      subst hy
      exact a3 x hx y List.mem_cons_self
    · intro x hx y hy e
      subst e
      exact hnot x hx (by simp [hy])
    · intro x hx y hy e
      subst e
      rcases List.mem_append.mp hy with hy | hy
      · apply hnot x hy
        simp only [List.mem_append, List.mem_singleton, List.mem_cons] at hx ⊢
        tauto
      · rcases List.mem_append.mp hx with hx | hx
        · exact a3 x hx x (List.mem_cons_of_mem _ hy) rfl
        · rw [List.mem_singleton] at hx
          subst hx
          exact a2.1 hy
  · intro t
    rw [hP.iteration]
    rcases hP.iter t with e | ⟨e, _⟩
    · rw [e, hB.iter, hB.iteration]; exact hi.le t
    · rw [e]
  · intro t ht
    rw [hn1] at ht
    by_cases hnew : t ∈ new
    · obtain ⟨_, _, o, ho, e⟩ := hn3 t hnew
      rcases hos with ⟨_, e'⟩ | ⟨a, ha, _, e'⟩
      · rw [e'] at ho; exact absurd ho (by simp)
      · rw [e'] at ho; rw [← e]; exact hT s hTs a ha o ho
    · apply hi.cl t
      simp only [List.mem_append, List.mem_cons, List.mem_singleton] at ht ⊢
      tauto
  · intro hc hb'
    have hc' := hc (hB.bell hb')
    obtain ⟨h1, h2⟩ := hB.small hb'
    have hsD : s ∉ D := by
      intro h
      have h1 := hi.nodup
      rw [List.nodup_append] at h1
      exact h1.2.2 s h s List.mem_cons_self rfl
    have hpe := err_pos
    refine ⟨?_, ?_⟩
    · intro t
      rw [hP.v]
      have hu := hc'.up t
      by_cases e : t = s
      · subst e
        rw [if_neg hsD, zero_add] at hu
        rw [if_pos (by simp)]
        rw [abs_le] at hu h1 ⊢
        constructor <;> linarith
      · rw [(hB.frame t e).1]
        have : (t ∈ D ++ [s]) ↔ t ∈ D := by simp [e]
        simp only [this]
        exact hu
    · intro t ht
      by_cases e : t = s
      · subst e
        rcases h2 with h2 | ⟨a, h2, h3, h4⟩
        · exact Or.inl h2
        · refine Or.inr ⟨a, h2, ?_, ?_, ?_⟩
          · rw [hP.best]; exact h3
          · rw [hP.v, h4]
            exact Q_add hp (fun t => by
              have h5 := hc'.up t
              have e1 : (if t ∈ D then ERRDELTA else 0) ≤ 1 / 100 := by split <;> norm_num [ERRDELTA]
              have e2 : (if t = start then ERRDELTA else 0) ≤ 1 / 100 := by split <;> norm_num [ERRDELTA]
              rw [abs_le] at h5
              linarith) h2
          · intro o ho
            rw [hP.iteration]
            rcases hos with ⟨e', _⟩ | ⟨x, hx, e', e''⟩
            · rw [e'] at h3; exact absurd h3 (by simp)
            · rw [e'] at h3; cases h3
              exact hP.marked o (by rw [e'']; exact ho)
      · have ht' : t = start ∨ t ∈ D := by
          rcases ht with h | h
          · exact Or.inl h
          · rcases List.mem_append.mp h with h | h
            · exact Or.inr h
            · exact absurd (List.mem_singleton.mp h) e
        rcases hc'.ok t ht' with h | ⟨a, k1, k2, k3, k4⟩
        · exact Or.inl h
        · refine Or.inr ⟨a, k1, ?_, ?_, ?_⟩
          · rw [hP.best, (hB.frame t e).2]; exact k2
          · rw [hP.v, (hB.frame t e).1]; exact k3
          · intro o ho
            have := k4 o ho
            rw [← hB.iter, ← hB.iteration] at this
            rw [hP.iteration]
            rcases hP.iter o.1 with e | ⟨e, _⟩
            · rw [e]; exact this
            · exact e

/-- the rest of a pass -/
theorem passLoop_wk (hp : Proper env.acts) {T : Int → Prop} (hT : ∀ s, T s → ∀ a ∈ env.acts s, ∀ o ∈ a.outs, T o.1) {v0 : Int → ℚ} :
    ∀ {fuel : Nat} {p : St} {b : ℚ} {wl D : List Int} {p' : St} {b' : ℚ}, PJ env goal T v0 p wl D → (b ≤ ERRDELTA → CJ env goal start v0 p D) →
      passLoop env goal fuel p b wl = some (p', b') → p'.iteration = p.iteration ∧ ∃ D', PJ env goal T v0 p' [] D' ∧ (b' ≤ ERRDELTA → CJ env goal start v0 p' D')
  | fuel, p, b, [], D, p', b', hi, hc, h => by
    have h : some (p, b) = some (p', b') := by
      rw [← h]; cases fuel <;> rfl
    cases h
    exact ⟨rfl, D, hi, hc⟩
  | 0, p, b, s :: wl, D, p', b', _, _, h => by cases h
  | fuel + 1, p, b, s :: wl, D, p', b', hi, hc, h => by
    rw [passLoop] at h
    rcases hr : backup env goal s p b with ⟨p1, b1⟩
    rw [hr] at h
    dsimp only at h
    rcases hq : pushRep (p1.best s) (env.acts s).length p1 wl with ⟨p2, wl2⟩
    rw [hq] at h
    obtain ⟨k1, k2, k3⟩ := step_wk hp hT hi hr hq
    obtain ⟨j1, j2⟩ := passLoop_wk hp hT k1 (k2 hc) h
    exact ⟨j1.trans k3, j2⟩

/-- the rest of a pass ends -/
theorem passLoop_wkEnds (hp : Proper env.acts) {S : List Int} (hT : ∀ s, s ∈ S → ∀ a ∈ env.acts s, ∀ o ∈ a.outs, o.1 ∈ S) {v0 : Int → ℚ} :
    ∀ {fuel : Nat} {p : St} {b : ℚ} {wl D : List Int}, PJ env goal (fun t => t ∈ S) v0 p wl D → S.length ≤ fuel + D.length → ∃ r, passLoop env goal fuel p b wl = some r
  | fuel, p, b, [], D, hi, hf => ⟨(p, b), by cases fuel <;> rfl⟩
  | 0, p, b, s :: wl, D, hi, hf => by
    have := nodup_len_le hi.nodup (fun t ht => hi.cl t ht)
    simp only [List.length_append, List.length_cons] at this
    omega
  | fuel + 1, p, b, s :: wl, D, hi, hf => by
    rw [passLoop]
    rcases hr : backup env goal s p b with ⟨p1, b1⟩
    dsimp only
    rcases hq : pushRep (p1.best s) (env.acts s).length p1 wl with ⟨p2, wl2⟩
    obtain ⟨k1, _, _⟩ := step_wk (start := s) hp hT hi hr hq
    exact passLoop_wkEnds hp hT k1 (by simp only [List.length_append, List.length_cons, List.length_nil]; omega)

/-- the first expansion of a pass -/
theorem first_wk (hp : Proper env.acts) {T : Int → Prop} (hT : ∀ s, T s → ∀ a ∈ env.acts s, ∀ o ∈ a.outs, T o.1)
    {p : St} {b : ℚ} {s : Int} (hTs : T s) (hs : Wk env goal p) (hm : ∀ t, p.iter t < p.iteration)
    {p1 : St} {b' : ℚ} (hb : backup env goal s p b = (p1, b')) {p2 : St} {wl2 : List Int} (hq : pushRep (p1.best s) (env.acts s).length p1 [] = (p2, wl2)) :
    PJ env goal T p.v p2 wl2 [] ∧ (b' ≤ ERRDELTA → CJ env goal s p.v p2 []) ∧ p2.iteration = p.iteration := by
  have hB := backup_wk (s := s) (b := b) hp hs
  rw [hb] at hB
  dsimp only at hB
  obtain ⟨os, hP, hos⟩ := expand_wk (s := s) (wl := []) hB.sub
  rw [hq] at hP
  dsimp only at hP
  obtain ⟨new, hn1, hn2, hn3⟩ := hP.wl
  rw [List.append_nil] at hn1
  subst hn1
  refine ⟨⟨hB.sub.of_eq hP.v hP.best, hn2, ?_, ?_, ?_⟩, ?_, hP.iteration.trans hB.iteration⟩
  · intro t
    rw [hP.iteration, List.nil_append]
    constructor
    · intro h
      rcases hP.iter t with e | ⟨_, _, e⟩
      · rw [e, hB.iter, hB.iteration] at h; have := hm t; omega
      · exact e
    · intro h; exact (hn3 t h).2.1
  · intro t
    rw [hP.iteration]
    rcases hP.iter t with e | ⟨e, _⟩
    · rw [e, hB.iter, hB.iteration]; exact le_of_lt (hm t)
    · rw [e]
  · intro t ht
    obtain ⟨_, _, o, ho, e⟩ := hn3 t ht
    rcases hos with ⟨_, e'⟩ | ⟨a, ha, _, e'⟩
    · rw [e'] at ho; exact absurd ho (by simp)
    · rw [e'] at ho; rw [← e]; exact hT s hTs a ha o ho
  · intro hb'
    obtain ⟨h1, h2⟩ := hB.small hb'
    refine ⟨?_, ?_⟩
    · intro t
      rw [hP.v, if_neg (by simp), zero_add]
      by_cases e : t = s
      · subst e; rw [if_pos rfl]; exact h1
      · rw [if_neg e, (hB.frame t e).1]; simp
    · intro t ht
      have e : t = s := by simpa using ht
      subst e
      rcases h2 with h2 | ⟨a, h2, h3, h4⟩
      · exact Or.inl h2
      · refine Or.inr ⟨a, h2, ?_, ?_, ?_⟩
        · rw [hP.best]; exact h3
        · rw [hP.v, h4]; norm_num
        · intro o ho
          rw [hP.iteration]
          rcases hos with ⟨e', _⟩ | ⟨x, hx, e', e''⟩
          · rw [e'] at h3; exact absurd h3 (by simp)
          · rw [e'] at h3; cases h3
            exact hP.marked o (by rw [e'']; exact ho)

/-- every state met by the policy has a best action whose value is at most 4·ERRDELTA above the state's value -/
def SettledW (env : VEnv) (goal start : Int) (p : St) : Prop :=
  ∃ D : Int → Prop, D start ∧ ∀ s, D s → s = goal ∨ ∃ a ∈ env.acts s, p.best s = some a ∧ Q p.v a ≤ p.v s + 1 / 25 ∧ ∀ o ∈ a.outs, D o.1

/-- a pass -/
theorem pass_wk (hp : Proper env.acts) {p p' : St} {b' : ℚ} {fuel : Nat} (hs : Wk env goal p) (hm : ∀ t, p.iter t ≤ p.iteration) (h : pass env start goal fuel p = some (p', b')) :
    Wk env goal p' ∧ (∀ t, p'.iter t ≤ p'.iteration) ∧ p'.iteration = p.iteration + 1 ∧ (b' ≤ ERRDELTA → SettledW env goal start p') := by
  unfold pass at h
  cases fuel with
  | zero => cases h
  | succ fuel =>
    rw [passLoop] at h
    have hs0 : Wk env goal { p with iteration := p.iteration + 1 } := hs.of_eq rfl rfl
    rcases hr : backup env goal start { p with iteration := p.iteration + 1 } 0 with ⟨p1, b1⟩
    rw [hr] at h
    dsimp only at h
    rcases hq : pushRep (p1.best start) (env.acts start).length p1 [] with ⟨p2, wl2⟩
    rw [hq] at h
    obtain ⟨k1, k2, k3⟩ := first_wk (T := fun _ => True) hp (fun _ _ _ _ _ _ => trivial) trivial hs0 (fun t => Nat.lt_succ_of_le (hm t)) hr hq
    obtain ⟨j1, D, j2, j3⟩ := passLoop_wk hp (fun _ _ _ _ _ _ => trivial) k1 k2 h
    refine ⟨j2.sub, j2.le, j1.trans k3, fun hb => ?_⟩
    have hc := j3 hb
    refine ⟨fun s => s = start ∨ s ∈ D, Or.inl rfl, ?_⟩
    intro s hD
    rcases hc.ok s hD with e | ⟨a, c1, c2, c3, c4⟩
    · exact Or.inl e
    · refine Or.inr ⟨a, c1, c2, ?_, ?_⟩
      · have : ∀ t, p'.v t ≤ p.v t + 1 / 50 := by
          intro t
          have := hc.up t
          rw [abs_le] at this
          have e1 : (if t ∈ D then ERRDELTA else 0) ≤ 1 / 100 := by split <;> norm_num [ERRDELTA]
          have e2 : (if t = start then ERRDELTA else 0) ≤ 1 / 100 := by split <;> norm_num [ERRDELTA]
          dsimp only at this
          linarith
        have := Q_add hp this c1
        dsimp only at c3
        linarith
      · intro o ho
        right
        have := (j2.mark o.1).mp (c4 o ho)
        simpa using this

/-- a pass ends -/
theorem pass_wkEnds (hp : Proper env.acts) {S : List Int} (hT : ∀ s, s ∈ S → ∀ a ∈ env.acts s, ∀ o ∈ a.outs, o.1 ∈ S) {p : St} {fuel : Nat} (hst : start ∈ S)
    (hs : Wk env goal p) (hm : ∀ t, p.iter t ≤ p.iteration) (hf : S.length < fuel) : ∃ r, pass env start goal fuel p = some r := by
  unfold pass
  cases fuel with
  | zero => omega
  | succ fuel =>
    rw [passLoop]
    have hs0 : Wk env goal { p with iteration := p.iteration + 1 } := hs.of_eq rfl rfl
    rcases hr : backup env goal start { p with iteration := p.iteration + 1 } 0 with ⟨p1, b1⟩
    dsimp only
    rcases hq : pushRep (p1.best start) (env.acts start).length p1 [] with ⟨p2, wl2⟩
    obtain ⟨k1, _, _⟩ := first_wk (T := fun t => t ∈ S) hp hT hst hs0 (fun t => Nat.lt_succ_of_le (hm t)) hr hq
    exact passLoop_wkEnds hp hT k1 (by simp only [List.length_nil]; omega)


/-- any property of the values that backups preserve is preserved -/
theorem passLoop_pres (hp : Proper env.acts) {P : (Int → ℚ) → Prop}
    (hP : ∀ s p b, Wk env goal p → P p.v → P (backup env goal s p b).1.v) :
    ∀ {fuel : Nat} {p : St} {b : ℚ} {wl : List Int} {p' : St} {b' : ℚ}, Wk env goal p → P p.v →
      passLoop env goal fuel p b wl = some (p', b') → Wk env goal p' ∧ P p'.v
  | fuel, p, b, [], p', b', hs, h0, h => by
    have h : some (p, b) = some (p', b') := by
      rw [← h]; cases fuel <;> rfl
    cases h
    exact ⟨hs, h0⟩
  | 0, p, b, s :: wl, p', b', _, _, h => by cases h
  | fuel + 1, p, b, s :: wl, p', b', hs, h0, h => by
    rw [passLoop] at h
    have hB := backup_wk (s := s) (b := b) hp hs
    have h1 := hP s p b hs h0
    rcases hr : backup env goal s p b with ⟨p1, b1⟩
    rw [hr] at h hB h1
    dsimp only at h hB h1
    obtain ⟨os, hQ, hos⟩ := expand_wk (s := s) (wl := wl) hB.sub
    rcases hq : pushRep (p1.best s) (env.acts s).length p1 wl with ⟨p2, wl2⟩
    rw [hq] at h hQ
    dsimp only at h hQ
    exact passLoop_pres hp hP (hB.sub.of_eq hQ.v hQ.best) (by rw [hQ.v]; exact h1) h

theorem iterate_pres (hp : Proper env.acts) {P : (Int → ℚ) → Prop}
    (hP : ∀ s p b, Wk env goal p → P p.v → P (backup env goal s p b).1.v) {clk : Nat → Bool} {fuel : Nat} :
    ∀ {n k : Nat} {p : St} {b : ℚ} {p' : St} {b' : ℚ}, Wk env goal p → P p.v → iterate env start goal clk fuel n k p b = some (p', b') →
      Wk env goal p' ∧ P p'.v
  | 0, k, p, b, p', b', _, _, h => by cases h
  | n + 1, k, p, b, p', b', hs, h0, h => by
    rw [iterate] at h
    split at h
    · split at h
      · cases h
      · rename_i p1 b1 hq
        have hs0 : Wk env goal { p with iteration := p.iteration + 1 } := hs.of_eq rfl rfl
        obtain ⟨h1, h2⟩ := passLoop_pres hp hP hs0 h0 hq
        exact iterate_pres hp hP h1 h2 h
    · cases h; exact ⟨hs, h0⟩

/-- the main loop, started with marks not above the iteration number -/
theorem iterate_wk (hp : Proper env.acts) {clk : Nat → Bool} {fuel : Nat} :
    ∀ {n k : Nat} {p : St} {b : ℚ} {p' : St} {b' : ℚ}, Wk env goal p → (∀ t, p.iter t ≤ p.iteration) →
      iterate env start goal clk fuel n k p b = some (p', b') →
      (∀ t, p'.iter t ≤ p'.iteration) ∧ ((b ≤ ERRDELTA → SettledW env goal start p) → b' ≤ ERRDELTA → SettledW env goal start p')
  | 0, k, p, b, p', b', _, _, h => by cases h
  | n + 1, k, p, b, p', b', hs, hm, h => by
    rw [iterate] at h
    split at h
    · split at h
      · cases h
      · rename_i p1 b1 hq
        obtain ⟨h1, h3, h4, h5⟩ := pass_wk hp hs hm hq
        obtain ⟨j1, j2⟩ := iterate_wk hp h1 h3 h
        exact ⟨j1, fun _ => j2 h5⟩
    · cases h; exact ⟨hm, fun h => h⟩

/-- the main loop ends when the time is over -/
theorem iterate_wkTime (hp : Proper env.acts) {S : List Int} (hT : ∀ s, s ∈ S → ∀ a ∈ env.acts s, ∀ o ∈ a.outs, o.1 ∈ S) (hst : start ∈ S) {clk : Nat → Bool} {fuel K : Nat}
    (hK : clk K = false) (hf : S.length < fuel) :
    ∀ {n k : Nat} {p : St} {b : ℚ}, Wk env goal p → (∀ t, p.iter t ≤ p.iteration) → k ≤ K → K < n + k → ∃ r, iterate env start goal clk fuel n k p b = some r
  | 0, k, p, b, _, _, h1, h2 => by omega
  | n + 1, k, p, b, hs, hm, h1, h2 => by
    rw [iterate]
    by_cases hc : clk k = true ∧ b > ERRDELTA
    · rw [if_pos hc]
      obtain ⟨⟨p1, b1⟩, hq⟩ := pass_wkEnds hp hT hst hs hm hf
      rw [hq]
      dsimp only
      obtain ⟨k1, k3, k4, k5⟩ := pass_wk hp hs hm hq
      have : k ≠ K := by
        intro e; subst e
        rw [hK] at hc; exact absurd hc.1 (by simp)
      exact iterate_wkTime hp hT hst hK hf k1 k3 (by omega) (by omega)
    · rw [if_neg hc]; exact ⟨_, rfl⟩

end VI
end Sbpl
