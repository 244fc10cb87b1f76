import Verif.Proofs.VI
/-! # Proofs about value iteration: a pass -/

namespace Sbpl
namespace VI
open MDP VISpec

variable {env : VEnv} {goal start : Int}

/-- expansion of a state: backup, then the outcomes of the best action are pushed -/
theorem expand_spec {s : Int} {p1 : St} {wl : List Int} (hs : Sub env goal p1) :
    ∃ os, PSpec os p1 wl (pushRep (p1.best s) (env.acts s).length p1 wl).1 (pushRep (p1.best s) (env.acts s).length p1 wl).2 ∧
      (p1.best s = none ∧ os = [] ∨ ∃ a ∈ env.acts s, p1.best s = some a ∧ os = a.outs) := by
  cases hb : p1.best s with
  | none => rw [pushRep_none]; exact ⟨[], pspec_refl (by simp), Or.inl ⟨rfl, rfl⟩⟩
  | some a =>
    have ha := (hs.best s a hb).2
    rw [pushRep_some (by
      intro e
      rw [List.length_eq_zero_iff] at e
      rw [e] at ha
      exact absurd ha (by simp))]
    exact ⟨a.outs, pushLoop_spec, Or.inr ⟨a, ha, rfl, rfl⟩⟩

theorem Sub.of_eq {p q : St} (h : Sub env goal p) (hv : q.v = p.v) (hb : q.best = p.best) : Sub env goal q := by
  refine ⟨?_, ?_, ?_, ?_, ?_⟩
  · rw [hv]; exact h.goal0
  · rw [hv]; exact h.nonneg
  · rw [hv]; exact h.sub
  · rw [hv]; exact h.dead
  · rw [hb]; exact h.best

theorem fresh_sub (hp : Proper env.acts) (hh : HConsistent env.acts goal env.h) : Sub env goal (fresh env) := by
  refine ⟨?_, ?_, ?_, ?_, ?_⟩
  · show ((env.h goal : Int) : ℚ) = 0
    rw [hh.atGoal]; norm_num
  · intro s
    show (0 : ℚ) ≤ ((env.h s : Int) : ℚ)
    exact_mod_cast hh.nonneg s
  · intro s hs a ha; exact hh.step s hs a ha
  · intro s _
    show ((env.h s : Int) : ℚ) ≤ ((1000000000 : Nat) : ℚ)
    exact_mod_cast hh.bounded s
  · intro s a h; exact absurd h (by simp [fresh])

/-- the state of a pass after the first expansion: `D` has been expanded since, `wl` is still to be expanded -/
structure PI (env : VEnv) (goal : Int) (T : Int → Prop) (v0 : Int → ℚ) (p : St) (wl D : List Int) : Prop where
  sub : Sub env goal p
  mono : ∀ t, v0 t ≤ p.v t
  nodup : (D ++ wl).Nodup
  mark : ∀ t, p.iter t = p.iteration ↔ t ∈ D ++ wl
  le : ∀ t, p.iter t ≤ p.iteration
  cl : ∀ t ∈ D ++ wl, T t

/-- an expanded state: the goal, or one whose best action was at most as good before the pass, and whose outcomes have been marked -/
def Ok (env : VEnv) (goal : Int) (v0 : Int → ℚ) (p : St) (s : Int) : Prop :=
  s = goal ∨ ∃ a ∈ env.acts s, p.best s = some a ∧ Q v0 a ≤ p.v s ∧ ∀ o ∈ a.outs, p.iter o.1 = p.iteration

/-- what holds if all changes so far are small -/
structure CI (env : VEnv) (goal start : Int) (v0 : Int → ℚ) (p : St) (D : List Int) : Prop where
  up : ∀ t, p.v t ≤ v0 t + (if t ∈ D then ERRDELTA else 0) + (if t = start then ERRDELTA else 0)
  ok : ∀ s, s = start ∨ s ∈ D → Ok env goal v0 p s

theorem err_lt_inf : ERRDELTA < ((INFINITECOST : Nat) : ℚ) := by
  show (1 / 100 : ℚ) < ((1000000000 : Nat) : ℚ)
  norm_num

theorem err_pos : 0 < ERRDELTA := by show (0 : ℚ) < 1 / 100; norm_num

theorem bell_mono {s : Int} {p p' : St} {b b' : ℚ} (h : BSpec env goal s p b p' b') (hb : b' ≤ ERRDELTA) : b ≤ ERRDELTA := by
  have := err_lt_inf
  rcases h.cases with ⟨_, e⟩ | ⟨_, _, _, e⟩ | ⟨a, _, _, _, _, ⟨_, e⟩ | ⟨_, ⟨e, _⟩ | ⟨_, e⟩⟩⟩
  · rw [← e]; exact hb
  · rw [e] at hb; linarith
  · rw [e] at hb; linarith
  · rw [← e]; exact hb
  · linarith

/-- a backup with a small change -/
theorem small {s : Int} {p p' : St} {b b' : ℚ} (h : BSpec env goal s p b p' b') (hs : Sub env goal p) (hb : b' ≤ ERRDELTA) :
    p'.v s ≤ p.v s + ERRDELTA ∧ (s = goal ∨ ∃ a ∈ env.acts s, p'.best s = some a ∧ p'.v s = Q p.v a) := by
  have := err_lt_inf
  have hp := err_pos
  rcases h.cases with ⟨e, _⟩ | ⟨_, _, _, e⟩ | ⟨a, _, h2, h3, h4, ⟨_, e⟩ | ⟨_, ⟨e, e'⟩ | ⟨e', e⟩⟩⟩
  · refine ⟨?_, Or.inl e⟩
    rw [e, h.sub.goal0, hs.goal0]; linarith
  · rw [e] at hb; linarith
  · rw [e] at hb; linarith
  · exact ⟨by rw [e] at hb; linarith, Or.inr ⟨a, h2, h3, h4⟩⟩
  · exact ⟨by linarith, Or.inr ⟨a, h2, h3, h4⟩⟩

/-- an expansion in the second phase -/
theorem step_spec (hp : Proper env.acts) {T : Int → Prop} (hT : ∀ s, T s → ∀ a ∈ env.acts s, ∀ o ∈ a.outs, T o.1)
    {v0 : Int → ℚ} {p : St} {b : ℚ} {s : Int} {wl D : List Int} (hi : PI env goal T v0 p (s :: wl) D)
    {p1 : St} {b' : ℚ} (hb : backup env goal s p b = (p1, b')) {p2 : St} {wl2 : List Int} (hq : pushRep (p1.best s) (env.acts s).length p1 wl = (p2, wl2)) :
    PI env goal T v0 p2 wl2 (D ++ [s]) ∧ ((b ≤ ERRDELTA → CI env goal start v0 p D) → b' ≤ ERRDELTA → CI env goal start v0 p2 (D ++ [s])) ∧ p2.iteration = p.iteration := by
  have hB := backup_spec (s := s) (b := b) hp hi.sub
  rw [hb] at hB
  dsimp only at hB
  obtain ⟨os, hP, hos⟩ := expand_spec (s := s) (wl := wl) hB.sub
  rw [hq] at hP
  dsimp only at hP
  obtain ⟨new, hn1, hn2, hn3⟩ := hP.wl
  have hTs : T s := hi.cl s (by simp)
  have hmk : ∀ t, p2.iter t = p2.iteration ↔ t ∈ (D ++ [s]) ++ wl2 := by
    intro t
    rw [hP.iteration, hn1]
    have h0 := hi.mark t
    rw [← hB.iter, ← hB.iteration] at h0
    constructor
    · intro h
      rcases hP.iter t with e | ⟨_, _, e⟩
      · rw [e] at h
        have := h0.mp h
        simp only [List.mem_append, List.mem_cons, List.mem_singleton] at this ⊢
        tauto
      · rw [hn1] at e
        simp only [List.mem_append, List.mem_singleton] at e ⊢
        tauto
    · intro h
      by_cases hnew : t ∈ new
      · exact (hn3 t hnew).2.1
      · have : t ∈ D ++ s :: wl := by
          simp only [List.mem_append, List.mem_cons, List.mem_singleton] at h ⊢
          tauto
        have := h0.mpr this
        rcases hP.iter t with e | ⟨e, _⟩
        · rw [e, this]
        · exact e
  refine ⟨⟨hB.sub.of_eq hP.v hP.best, ?_, ?_, hmk, ?_, ?_⟩, ?_, hP.iteration.trans hB.iteration⟩
  · intro t; rw [hP.v]; exact le_trans (hi.mono t) (hB.mono t)
  · rw [hn1]
    have h1 := hi.nodup
    rw [List.nodup_append] at h1
    obtain ⟨a1, a2, a3⟩ := h1
    rw [List.nodup_cons] at a2
    have hnot : ∀ t ∈ new, t ∉ D ++ s :: wl := by
      intro t ht h
      have := (hi.mark t).mpr h
      rw [← hB.iter, ← hB.iteration] at this
      exact (hn3 t ht).1 this
    rw [List.nodup_append, List.nodup_append, List.nodup_append]
    refine ⟨⟨a1, by simp, ?_⟩, ⟨hn2, a2.2, ?_⟩, ?_⟩
    · intro x hx y hy
      rw [List.mem_singleton] at hy
      subst hy
      exact a3 x hx y List.mem_cons_self
    · intro x hx y hy e
      subst e
      exact hnot x hx (by simp [hy])
    · intro x hx y hy e
      subst e
      rcases List.mem_append.mp hy with hy | hy
      · apply hnot x hy
        simp only [List.mem_append, List.mem_singleton, List.mem_cons] at hx ⊢
        tauto
      · rcases List.mem_append.mp hx with hx | hx
        · exact a3 x hx x (List.mem_cons_of_mem _ hy) rfl
        · rw [List.mem_singleton] at hx
          subst hx
          exact a2.1 hy
  · intro t
    rw [hP.iteration]
    rcases hP.iter t with e | ⟨e, _⟩
    · rw [e, hB.iter, hB.iteration]; exact hi.le t
    · rw [e]
  · intro t ht
    rw [hn1] at ht
    by_cases hnew : t ∈ new
    · obtain ⟨_, _, o, ho, e⟩ := hn3 t hnew
      rcases hos with ⟨_, e'⟩ | ⟨a, ha, _, e'⟩
      · rw [e'] at ho; exact absurd ho (by simp)
      · rw [e'] at ho; rw [← e]; exact hT s hTs a ha o ho
    · apply hi.cl t
      simp only [List.mem_append, List.mem_cons, List.mem_singleton] at ht ⊢
      tauto
  · intro hc hb'
    have hc' := hc (bell_mono hB hb')
    obtain ⟨h1, h2⟩ := small hB hi.sub hb'
    have hsD : s ∉ D := by
      intro h
      have h1 := hi.nodup
      rw [List.nodup_append] at h1
      exact h1.2.2 s h s List.mem_cons_self rfl
    have hpe := err_pos
    refine ⟨?_, ?_⟩
    · intro t
      rw [hP.v]
      have hu := hc'.up t
      by_cases e : t = s
      · subst e
        rw [if_neg hsD] at hu
        rw [if_pos (by simp)]
        linarith
      · rw [(hB.frame t e).1]
        have : (t ∈ D ++ [s]) ↔ t ∈ D := by simp [e]
        simp only [this]
        exact hu
    · intro t ht
      by_cases e : t = s
      · subst e
        rcases h2 with h2 | ⟨a, h2, h3, h4⟩
        · exact Or.inl h2
        · refine Or.inr ⟨a, h2, ?_, ?_, ?_⟩
          · rw [hP.best]; exact h3
          · rw [hP.v, h4]; exact Q_mono hp hi.mono h2
          · intro o ho
            rw [hP.iteration]
            rcases hos with ⟨e', _⟩ | ⟨x, hx, e', e''⟩
            · rw [e'] at h3; exact absurd h3 (by simp)
            · rw [e'] at h3; cases h3
              exact hP.marked o (by rw [e'']; exact ho)
      · have ht' : t = start ∨ t ∈ D := by
          rcases ht with h | h
          · exact Or.inl h
          · rcases List.mem_append.mp h with h | h
            · exact Or.inr h
            · exact absurd (List.mem_singleton.mp h) e
        rcases hc'.ok t ht' with h | ⟨a, k1, k2, k3, k4⟩
        · exact Or.inl h
        · refine Or.inr ⟨a, k1, ?_, ?_, ?_⟩
          · rw [hP.best, (hB.frame t e).2]; exact k2
          · rw [hP.v, (hB.frame t e).1]; exact k3
          · intro o ho
            have := k4 o ho
            rw [← hB.iter, ← hB.iteration] at this
            rw [hP.iteration]
            rcases hP.iter o.1 with e | ⟨e, _⟩
            · rw [e]; exact this
            · exact e

/-- the rest of a pass -/
theorem passLoop_spec (hp : Proper env.acts) {T : Int → Prop} (hT : ∀ s, T s → ∀ a ∈ env.acts s, ∀ o ∈ a.outs, T o.1) {v0 : Int → ℚ} :
    ∀ {fuel : Nat} {p : St} {b : ℚ} {wl D : List Int} {p' : St} {b' : ℚ}, PI env goal T v0 p wl D → (b ≤ ERRDELTA → CI env goal start v0 p D) →
      passLoop env goal fuel p b wl = some (p', b') → p'.iteration = p.iteration ∧ ∃ D', PI env goal T v0 p' [] D' ∧ (b' ≤ ERRDELTA → CI env goal start v0 p' D')
  | fuel, p, b, [], D, p', b', hi, hc, h => by
    have h : some (p, b) = some (p', b') := by
      rw [← h]; cases fuel <;> rfl
    cases h
    exact ⟨rfl, D, hi, hc⟩
  | 0, p, b, s :: wl, D, p', b', _, _, h => by cases h
  | fuel + 1, p, b, s :: wl, D, p', b', hi, hc, h => by
    rw [passLoop] at h
    rcases hr : backup env goal s p b with ⟨p1, b1⟩
    rw [hr] at h
    dsimp only at h
    rcases hq : pushRep (p1.best s) (env.acts s).length p1 wl with ⟨p2, wl2⟩
    rw [hq] at h
    obtain ⟨k1, k2, k3⟩ := step_spec hp hT hi hr hq
    obtain ⟨j1, j2⟩ := passLoop_spec hp hT k1 (k2 hc) h
    exact ⟨j1.trans k3, j2⟩

/-- the rest of a pass ends -/
theorem passLoop_ends (hp : Proper env.acts) {S : List Int} (hT : ∀ s, s ∈ S → ∀ a ∈ env.acts s, ∀ o ∈ a.outs, o.1 ∈ S) {v0 : Int → ℚ} :
    ∀ {fuel : Nat} {p : St} {b : ℚ} {wl D : List Int}, PI env goal (fun t => t ∈ S) v0 p wl D → S.length ≤ fuel + D.length → ∃ r, passLoop env goal fuel p b wl = some r
  | fuel, p, b, [], D, hi, hf => ⟨(p, b), by cases fuel <;> rfl⟩
  | 0, p, b, s :: wl, D, hi, hf => by
    have := nodup_len_le hi.nodup (fun t ht => hi.cl t ht)
    simp only [List.length_append, List.length_cons] at this
    omega
  | fuel + 1, p, b, s :: wl, D, hi, hf => by
    rw [passLoop]
    rcases hr : backup env goal s p b with ⟨p1, b1⟩
    dsimp only
    rcases hq : pushRep (p1.best s) (env.acts s).length p1 wl with ⟨p2, wl2⟩
    obtain ⟨k1, _, _⟩ := step_spec (start := s) hp hT hi hr hq
    exact passLoop_ends hp hT k1 (by simp only [List.length_append, List.length_cons, List.length_nil]; omega)

/-- the first expansion of a pass -/
theorem first_spec (hp : Proper env.acts) {T : Int → Prop} (hT : ∀ s, T s → ∀ a ∈ env.acts s, ∀ o ∈ a.outs, T o.1)
    {p : St} {b : ℚ} {s : Int} (hTs : T s) (hs : Sub env goal p) (hm : ∀ t, p.iter t < p.iteration)
    {p1 : St} {b' : ℚ} (hb : backup env goal s p b = (p1, b')) {p2 : St} {wl2 : List Int} (hq : pushRep (p1.best s) (env.acts s).length p1 [] = (p2, wl2)) :
    PI env goal T p.v p2 wl2 [] ∧ (b' ≤ ERRDELTA → CI env goal s p.v p2 []) ∧ p2.iteration = p.iteration := by
  have hB := backup_spec (s := s) (b := b) hp hs
  rw [hb] at hB
  dsimp only at hB
  obtain ⟨os, hP, hos⟩ := expand_spec (s := s) (wl := []) hB.sub
  rw [hq] at hP
  dsimp only at hP
  obtain ⟨new, hn1, hn2, hn3⟩ := hP.wl
  rw [List.append_nil] at hn1
  subst hn1
  refine ⟨⟨hB.sub.of_eq hP.v hP.best, ?_, hn2, ?_, ?_, ?_⟩, ?_, hP.iteration.trans hB.iteration⟩
  · intro t; rw [hP.v]; exact hB.mono t
  · intro t
    rw [hP.iteration, List.nil_append]
    constructor
    · intro h
      rcases hP.iter t with e | ⟨_, _, e⟩
      · rw [e, hB.iter, hB.iteration] at h; have := hm t; omega
      · exact e
    · intro h; exact (hn3 t h).2.1
  · intro t
    rw [hP.iteration]
    rcases hP.iter t with e | ⟨e, _⟩
    · rw [e, hB.iter, hB.iteration]; exact le_of_lt (hm t)
    · rw [e]
  · intro t ht
    obtain ⟨_, _, o, ho, e⟩ := hn3 t ht
    rcases hos with ⟨_, e'⟩ | ⟨a, ha, _, e'⟩
    · rw [e'] at ho; exact absurd ho (by simp)
    · rw [e'] at ho; rw [← e]; exact hT s hTs a ha o ho
  · intro hb'
    obtain ⟨h1, h2⟩ := small hB hs hb'
    refine ⟨?_, ?_⟩
    · intro t
      rw [hP.v, if_neg (by simp)]
      by_cases e : t = s
      · subst e; rw [if_pos rfl]; linarith
      · rw [if_neg e, (hB.frame t e).1]; linarith
    · intro t ht
      have e : t = s := by simpa using ht
      subst e
      rcases h2 with h2 | ⟨a, h2, h3, h4⟩
      · exact Or.inl h2
      · refine Or.inr ⟨a, h2, ?_, ?_, ?_⟩
        · rw [hP.best]; exact h3
        · rw [hP.v, h4]
        · intro o ho
          rw [hP.iteration]
          rcases hos with ⟨e', _⟩ | ⟨x, hx, e', e''⟩
          · rw [e'] at h3; exact absurd h3 (by simp)
          · rw [e'] at h3; cases h3
            exact hP.marked o (by rw [e'']; exact ho)

/-- every state met by the policy has a best action whose value is at most 2·ERRDELTA above the state's value -/
def Settled (env : VEnv) (goal start : Int) (p : St) : Prop :=
  ∃ D : Int → Prop, D start ∧ ∀ s, D s → s = goal ∨ ∃ a ∈ env.acts s, p.best s = some a ∧ Q p.v a ≤ p.v s + 1 / 50 ∧ ∀ o ∈ a.outs, D o.1

/-- a pass -/
theorem pass_spec (hp : Proper env.acts) {p p' : St} {b' : ℚ} {fuel : Nat} (hs : Sub env goal p) (hm : ∀ t, p.iter t ≤ p.iteration) (h : pass env start goal fuel p = some (p', b')) :
    Sub env goal p' ∧ (∀ t, p.v t ≤ p'.v t) ∧ (∀ t, p'.iter t ≤ p'.iteration) ∧ p'.iteration = p.iteration + 1 ∧ (b' ≤ ERRDELTA → Settled env goal start p') := by
  unfold pass at h
  cases fuel with
  | zero => cases h
  | succ fuel =>
    rw [passLoop] at h
    have hs0 : Sub env goal { p with iteration := p.iteration + 1 } := hs.of_eq rfl rfl
    rcases hr : backup env goal start { p with iteration := p.iteration + 1 } 0 with ⟨p1, b1⟩
    rw [hr] at h
    dsimp only at h
    rcases hq : pushRep (p1.best start) (env.acts start).length p1 [] with ⟨p2, wl2⟩
    rw [hq] at h
    obtain ⟨k1, k2, k3⟩ := first_spec (T := fun _ => True) hp (fun _ _ _ _ _ _ => trivial) trivial hs0 (fun t => Nat.lt_succ_of_le (hm t)) hr hq
    obtain ⟨j1, D, j2, j3⟩ := passLoop_spec hp (fun _ _ _ _ _ _ => trivial) k1 k2 h
    refine ⟨j2.sub, j2.mono, j2.le, j1.trans k3, fun hb => ?_⟩
    have hc := j3 hb
    refine ⟨fun s => s = start ∨ s ∈ D, Or.inl rfl, ?_⟩
    intro s hD
    rcases hc.ok s hD with e | ⟨a, c1, c2, c3, c4⟩
    · exact Or.inl e
    · refine Or.inr ⟨a, c1, c2, ?_, ?_⟩
      · have : ∀ t, p'.v t ≤ p.v t + 1 / 50 := by
          intro t
          have := hc.up t
          have e1 : (if t ∈ D then ERRDELTA else 0) ≤ 1 / 100 := by split <;> norm_num [ERRDELTA]
          have e2 : (if t = start then ERRDELTA else 0) ≤ 1 / 100 := by split <;> norm_num [ERRDELTA]
          dsimp only at this
          linarith
        have := Q_add hp this c1
        dsimp only at c3
        linarith
      · intro o ho
        right
        have := (j2.mark o.1).mp (c4 o ho)
        simpa using this

/-- a pass ends -/
theorem pass_ends (hp : Proper env.acts) {S : List Int} (hT : ∀ s, s ∈ S → ∀ a ∈ env.acts s, ∀ o ∈ a.outs, o.1 ∈ S) {p : St} {fuel : Nat} (hst : start ∈ S)
    (hs : Sub env goal p) (hm : ∀ t, p.iter t ≤ p.iteration) (hf : S.length < fuel) : ∃ r, pass env start goal fuel p = some r := by
  unfold pass
  cases fuel with
  | zero => omega
  | succ fuel =>
    rw [passLoop]
    have hs0 : Sub env goal { p with iteration := p.iteration + 1 } := hs.of_eq rfl rfl
    rcases hr : backup env goal start { p with iteration := p.iteration + 1 } 0 with ⟨p1, b1⟩
    dsimp only
    rcases hq : pushRep (p1.best start) (env.acts start).length p1 [] with ⟨p2, wl2⟩
    obtain ⟨k1, _, _⟩ := first_spec (T := fun t => t ∈ S) hp hT hst hs0 (fun t => Nat.lt_succ_of_le (hm t)) hr hq
    exact passLoop_ends hp hT k1 (by simp only [List.length_nil]; omega)

/-! ## Progress -/

/-- how far a state is from its final value -/
def gap (B : ℚ) (p : St) (s : Int) : ℚ := (if (p.best s).isNone = true then 1 else 0) + 100 * (B - p.v s)

def Phi (S : List Int) (B : ℚ) (p : St) : ℚ := (S.map (gap B p)).sum

theorem sum_drop {α : Type} {f g : α → ℚ} {x : α} {d : ℚ} : ∀ {l : List α}, x ∈ l → (∀ y ∈ l, f y ≤ g y) → f x + d ≤ g x → (l.map f).sum + d ≤ (l.map g).sum
  | [], h, _, _ => absurd h (by simp)
  | y :: l, h, h1, h2 => by
    simp only [List.map_cons, List.sum_cons]
    rcases List.mem_cons.mp h with rfl | h
    · have := sum_le_sum (fun z hz => h1 z (List.mem_cons_of_mem _ hz)); linarith
    · have := sum_drop h (fun z hz => h1 z (List.mem_cons_of_mem _ hz)) h2
      have := h1 y List.mem_cons_self
      linarith

/-- a backup does not increase the potential, and lowers it by 1 if the change is large -/
theorem phi_step {S : List Int} {B : ℚ} {s : Int} {p p' : St} {b b' : ℚ} (h : BSpec env goal s p b p' b') (hs : s ∈ S) (hd : env.acts s ≠ [] ∨ s = goal) (hsub : Sub env goal p) :
    Phi S B p' ≤ Phi S B p ∧ (b ≤ ERRDELTA → ERRDELTA < b' → Phi S B p' + 1 ≤ Phi S B p) := by
  have hne : ∀ t, t ≠ s → gap B p' t = gap B p t := by
    intro t e
    unfold gap
    rw [(h.frame t e).1, (h.frame t e).2]
  have hle : gap B p' s ≤ gap B p s ∧ (b ≤ ERRDELTA → ERRDELTA < b' → gap B p' s + 1 ≤ gap B p s) := by
    unfold gap
    have hmono := h.mono s
    rcases h.cases with ⟨e, e'⟩ | ⟨e, e', _⟩ | ⟨a, _, _, k1, _, ⟨k2, e⟩ | ⟨k2, ⟨e, e'⟩ | ⟨e', e⟩⟩⟩
    · refine ⟨?_, fun h1 h2 => by rw [e'] at h2; exact absurd h2 (not_lt.mpr h1)⟩
      have hbp : p.best s = none := by
        cases hb : p.best s with
        | none => rfl
        | some a => exact absurd e (hsub.best s a hb).1
      rw [hbp]
      have : (if (p'.best s).isNone = true then (1 : ℚ) else 0) ≤ 1 := by split <;> norm_num
      simp only [Option.isNone_none, if_true]
      linarith
    · rcases hd with hd | hd
      · exact absurd e' hd
      · exact absurd hd e
    · rw [k1, k2]
      simp only [Option.isNone_some, Option.isNone_none, if_true, Bool.false_eq_true, if_false]
      exact ⟨by linarith, fun _ _ => by linarith⟩
    · rw [k1]
      simp only [Option.isNone_some, Bool.false_eq_true, if_false]
      have : (0 : ℚ) ≤ (if (p.best s).isNone = true then (1 : ℚ) else 0) := by split <;> norm_num
      exact ⟨by linarith, fun h1 h2 => by rw [e] at h2; exact absurd h2 (not_lt.mpr h1)⟩
    · rw [k1]
      simp only [Option.isNone_some, Bool.false_eq_true, if_false]
      have : (0 : ℚ) ≤ (if (p.best s).isNone = true then (1 : ℚ) else 0) := by split <;> norm_num
      refine ⟨by linarith, fun _ h2 => ?_⟩
      rw [e'] at h2
      have h2 : (1 / 100 : ℚ) < p'.v s - p.v s := h2
      linarith
  have hall : ∀ t ∈ S, gap B p' t ≤ gap B p t := by
    intro t _
    by_cases e : t = s
    · subst e; exact hle.1
    · rw [hne t e]
  exact ⟨sum_le_sum hall, fun h1 h2 => sum_drop hs hall (hle.2 h1 h2)⟩

theorem phi_of_eq {S : List Int} {B : ℚ} {p q : St} (hv : q.v = p.v) (hb : q.best = p.best) : Phi S B q = Phi S B p := by
  unfold Phi gap; rw [hv, hb]

/-- a pass lowers the potential by 1 unless the largest change was small -/
theorem phi_passLoop (hp : Proper env.acts) {S : List Int} {B : ℚ} (hT : ∀ s, s ∈ S → ∀ a ∈ env.acts s, ∀ o ∈ a.outs, o.1 ∈ S) (hd : ∀ s ∈ S, env.acts s ≠ [] ∨ s = goal) :
    ∀ {fuel : Nat} {p : St} {b : ℚ} {wl : List Int} {p' : St} {b' : ℚ}, Sub env goal p → (∀ t ∈ wl, t ∈ S) →
      passLoop env goal fuel p b wl = some (p', b') → Phi S B p' ≤ Phi S B p ∧ (b ≤ ERRDELTA → ERRDELTA < b' → Phi S B p' + 1 ≤ Phi S B p)
  | fuel, p, b, [], p', b', hs, hw, h => by
    have h : some (p, b) = some (p', b') := by
      rw [← h]; cases fuel <;> rfl
    cases h
    exact ⟨le_refl _, fun h1 h2 => absurd h2 (not_lt.mpr h1)⟩
  | 0, p, b, s :: wl, p', b', _, _, h => by cases h
  | fuel + 1, p, b, s :: wl, p', b', hs, hw, h => by
    rw [passLoop] at h
    have hB := backup_spec (s := s) (b := b) hp hs
    rcases hr : backup env goal s p b with ⟨p1, b1⟩
    rw [hr] at h hB
    dsimp only at h hB
    obtain ⟨os, hP, hos⟩ := expand_spec (s := s) (wl := wl) hB.sub
    rcases hq : pushRep (p1.best s) (env.acts s).length p1 wl with ⟨p2, wl2⟩
    rw [hq] at h hP
    dsimp only at h hP
    have hsS := hw s List.mem_cons_self
    have h1 := phi_step (S := S) (B := B) hB hsS (hd s hsS) hs
    have h2 := phi_passLoop (B := B) hp hT hd (hB.sub.of_eq hP.v hP.best) (by
      intro t ht
      obtain ⟨new, hn1, hn2, hn3⟩ := hP.wl
      rw [hn1] at ht
      rcases List.mem_append.mp ht with ht | ht
      · obtain ⟨_, _, o, ho, e⟩ := hn3 t ht
        rcases hos with ⟨_, e'⟩ | ⟨a, ha, _, e'⟩
        · rw [e'] at ho; exact absurd ho (by simp)
        · rw [e'] at ho; rw [← e]; exact hT s hsS a ha o ho
      · exact hw t (List.mem_cons_of_mem _ ht)) h
    rw [phi_of_eq hP.v hP.best] at h2
    refine ⟨le_trans h2.1 h1.1, fun hb hb' => ?_⟩
    by_cases hb1 : b1 ≤ ERRDELTA
    · have := h2.2 hb1 hb'; linarith [h1.1]
    · have := h1.2 hb (not_le.mp hb1); linarith [h2.1]

theorem phi_pass (hp : Proper env.acts) {S : List Int} {B : ℚ} (hT : ∀ s, s ∈ S → ∀ a ∈ env.acts s, ∀ o ∈ a.outs, o.1 ∈ S) (hd : ∀ s ∈ S, env.acts s ≠ [] ∨ s = goal)
    {fuel : Nat} {p : St} {p' : St} {b' : ℚ} (hs : Sub env goal p) (hst : start ∈ S) (h : pass env start goal fuel p = some (p', b')) (hb : ERRDELTA < b') :
    Phi S B p' + 1 ≤ Phi S B p := by
  have hs0 : Sub env goal { p with iteration := p.iteration + 1 } := hs.of_eq rfl rfl
  have := (phi_passLoop (B := B) hp hT hd hs0 (by simpa using hst) h).2 (le_of_lt err_pos) hb
  exact this

end VI
end Sbpl
