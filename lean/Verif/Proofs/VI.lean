import Mathlib.Tactic.Linarith
import Mathlib.Tactic.Ring
import Mathlib.Algebra.Order.Ring.Abs
import Verif.Model.VI
import Verif.Spec.VI
import Verif.Proofs.ListAux
/-! # Proofs about value iteration: backups and passes -/

namespace Sbpl
namespace VI
open MDP VISpec

/-- value of an action -/
def Q (v : Int → ℚ) (a : Action) : ℚ := expect a (fun c t => c + v t)

theorem updI_self {α : Type} {f : Int → α} {k : Int} {x : α} : updI f k x k = x := if_pos rfl
theorem updI_ne {α : Type} {f : Int → α} {k j : Int} {x : α} (h : j ≠ k) : updI f k x j = f j := if_neg h

theorem qLoop_eq (v : Int → ℚ) : ∀ (os : List (Int × Int × ℚ)) (q : ℚ), qLoop v os q = q + (os.map (fun o => o.2.2 * ((o.2.1 : ℚ) + v o.1))).sum
  | [], q => by simp [qLoop]
  | (t, c, p) :: os, q => by
    rw [qLoop, qLoop_eq v os]
    simp only [List.map_cons, List.sum_cons]
    ring

theorem qLoop_Q (v : Int → ℚ) (a : Action) : qLoop v a.outs 0 = Q v a := by
  rw [qLoop_eq, zero_add]; rfl

theorem minLoop_some (v : Int → ℚ) : ∀ (xs : List Action) (a : Action), ∃ b, minLoop v xs (some a) (Q v a) = (some b, Q v b) ∧ (b = a ∨ b ∈ xs) ∧
    Q v b ≤ Q v a ∧ ∀ x ∈ xs, Q v b ≤ Q v x
  | [], a => ⟨a, rfl, Or.inl rfl, le_refl _, by simp⟩
  | x :: xs, a => by
    rw [minLoop, qLoop_Q]
    by_cases h : Q v x < Q v a
    · rw [if_pos (Or.inr h)]
      obtain ⟨b, h1, h2, h3, h4⟩ := minLoop_some v xs x
      refine ⟨b, h1, Or.inr ?_, le_trans h3 (le_of_lt h), ?_⟩
      · rcases h2 with rfl | h2
        · exact List.mem_cons_self
        · exact List.mem_cons_of_mem _ h2
      · intro y hy
        rcases List.mem_cons.mp hy with rfl | hy
        · exact h3
        · exact h4 y hy
    · rw [if_neg (by simp [h])]
      obtain ⟨b, h1, h2, h3, h4⟩ := minLoop_some v xs a
      refine ⟨b, h1, ?_, h3, ?_⟩
      · rcases h2 with rfl | h2
        · exact Or.inl rfl
        · exact Or.inr (List.mem_cons_of_mem _ h2)
      · intro y hy
        rcases List.mem_cons.mp hy with rfl | hy
        · exact le_trans h3 (not_lt.mp h)
        · exact h4 y hy

theorem minLoop_spec (v : Int → ℚ) (xs : List Action) : (xs = [] ∧ minLoop v xs none INFINITECOST = (none, (INFINITECOST : ℚ))) ∨
    ∃ b ∈ xs, minLoop v xs none INFINITECOST = (some b, Q v b) ∧ ∀ x ∈ xs, Q v b ≤ Q v x := by
  cases xs with
  | nil => exact Or.inl ⟨rfl, rfl⟩
  | cons x xs =>
    right
    rw [minLoop, if_pos (Or.inl (by simp)), qLoop_Q]
    obtain ⟨b, h1, h2, h3, h4⟩ := minLoop_some v xs x
    refine ⟨b, ?_, h1, ?_⟩
    · rcases h2 with rfl | h2
      · exact List.mem_cons_self
      · exact List.mem_cons_of_mem _ h2
    · intro y hy
      rcases List.mem_cons.mp hy with rfl | hy
      · exact h3
      · exact h4 y hy

theorem sum_le_sum {α : Type} {f g : α → ℚ} : ∀ {l : List α}, (∀ x ∈ l, f x ≤ g x) → (l.map f).sum ≤ (l.map g).sum
  | [], _ => le_refl _
  | x :: l, h => by
    simp only [List.map_cons, List.sum_cons]
    exact add_le_add (h x List.mem_cons_self) (sum_le_sum (fun y hy => h y (List.mem_cons_of_mem _ hy)))

theorem sum_mul_add {α : Type} {f g : α → ℚ} {k : ℚ} : ∀ {l : List α}, (l.map (fun x => f x * (g x + k))).sum = (l.map (fun x => f x * g x)).sum + k * (l.map f).sum
  | [] => by simp
  | x :: l => by
    simp only [List.map_cons, List.sum_cons]
    rw [sum_mul_add (l := l)]
    ring

/-- expectations are monotone -/
theorem expect_mono {a : Action} {f g : Int → Int → ℚ} (hp : ∀ o ∈ a.outs, 0 ≤ o.2.2) (h : ∀ o ∈ a.outs, f o.2.1 o.1 ≤ g o.2.1 o.1) : expect a f ≤ expect a g :=
  sum_le_sum (fun o ho => mul_le_mul_of_nonneg_left (h o ho) (hp o ho))

theorem expect_add_const {a : Action} {f : Int → Int → ℚ} {k : ℚ} (ht : (a.outs.map (fun o => o.2.2)).sum = 1) : expect a (fun c t => f c t + k) = expect a f + k := by
  unfold expect
  rw [sum_mul_add (f := fun o : Int × Int × ℚ => o.2.2) (g := fun o => f o.2.1 o.1), ht, mul_one]

theorem expect_add {a : Action} {f g : Int → Int → ℚ} : expect a (fun c t => f c t + g c t) = expect a f + expect a g := by
  unfold expect
  induction a.outs with
  | nil => simp
  | cons o os ih => simp only [List.map_cons, List.sum_cons, ih]; ring

theorem expect_smul {a : Action} {f : Int → Int → ℚ} {k : ℚ} : expect a (fun c t => k * f c t) = k * expect a f := by
  unfold expect
  induction a.outs with
  | nil => simp
  | cons o os ih => simp only [List.map_cons, List.sum_cons, ih]; ring

theorem expect_nonneg {a : Action} {f : Int → Int → ℚ} (hp : ∀ o ∈ a.outs, 0 ≤ o.2.2) (h : ∀ o ∈ a.outs, 0 ≤ f o.2.1 o.1) : 0 ≤ expect a f := by
  have := expect_mono (f := fun _ _ => 0) hp h
  have e : expect a (fun _ _ => 0) = 0 := by
    unfold expect
    induction a.outs with
    | nil => simp
    | cons o os ih => simp [ih]
  linarith

theorem expect_const {a : Action} {k : ℚ} (ht : (a.outs.map (fun o => o.2.2)).sum = 1) : expect a (fun _ _ => k) = k := by
  have := expect_add_const (a := a) (f := fun _ _ => 0) (k := k) ht
  have e : expect a (fun _ _ => 0) = 0 := by
    unfold expect
    induction a.outs with
    | nil => simp
    | cons o os ih => simp [ih]
  simp only [zero_add] at this
  rw [this, e, zero_add]

theorem Q_mono {acts : Int → List Action} (hp : Proper acts) {v w : Int → ℚ} (h : ∀ t, v t ≤ w t) {s : Int} {a : Action} (ha : a ∈ acts s) : Q v a ≤ Q w a :=
  expect_mono (hp.prob s a ha) (fun o _ => by have := h o.1; linarith)

theorem Q_add {acts : Int → List Action} (hp : Proper acts) {v w : Int → ℚ} {k : ℚ} (h : ∀ t, v t ≤ w t + k) {s : Int} {a : Action} (ha : a ∈ acts s) : Q v a ≤ Q w a + k := by
  unfold Q
  rw [← expect_add_const (hp.total s a ha)]
  exact expect_mono (hp.prob s a ha) (fun o _ => by have := h o.1; linarith)

/-- what holds between backups: values are not negative and never above the value of an action; best actions are actions of their states -/
structure Sub (env : VEnv) (goal : Int) (p : St) : Prop where
  goal0 : p.v goal = 0
  nonneg : ∀ s, 0 ≤ p.v s
  sub : ∀ s, s ≠ goal → ∀ a ∈ env.acts s, p.v s ≤ Q p.v a
  dead : ∀ s, env.acts s = [] → p.v s ≤ INFINITECOST
  best : ∀ s a, p.best s = some a → s ≠ goal ∧ a ∈ env.acts s

/-- the effect of one backup -/
structure BSpec (env : VEnv) (goal s : Int) (p : St) (b : ℚ) (p' : St) (b' : ℚ) : Prop where
  sub : Sub env goal p'
  mono : ∀ t, p.v t ≤ p'.v t
  frame : ∀ t, t ≠ s → p'.v t = p.v t ∧ p'.best t = p.best t
  iter : p'.iter = p.iter
  iteration : p'.iteration = p.iteration
  cases : s = goal ∧ b' = b ∨ s ≠ goal ∧ env.acts s = [] ∧ p'.best s = none ∧ b' = INFINITECOST ∨
    ∃ a, s ≠ goal ∧ a ∈ env.acts s ∧ p'.best s = some a ∧ p'.v s = Q p.v a ∧
      (p.best s = none ∧ b' = INFINITECOST ∨ p.best s ≠ none ∧ (b' = b ∧ p'.v s - p.v s ≤ b ∨ b' = p'.v s - p.v s ∧ b < b'))

theorem backup_spec {env : VEnv} (hp : Proper env.acts) {goal s : Int} {p : St} {b : ℚ} (hs : Sub env goal p) :
    BSpec env goal s p b (backup env goal s p b).1 (backup env goal s p b).2 := by
  unfold backup
  by_cases hg : s = goal
  · rw [if_pos hg]
    subst hg
    have hv : ∀ t, updI p.v s 0 t = p.v t := by
      intro t
      by_cases e : t = s
      · subst e; rw [updI_self, hs.goal0]
      · rw [updI_ne e]
    have hv' : updI p.v s 0 = p.v := funext hv
    refine ⟨⟨?_, ?_, ?_, ?_, ?_⟩, ?_, ?_, rfl, rfl, Or.inl ⟨rfl, rfl⟩⟩
    · exact updI_self
    · intro t; dsimp only; rw [hv]; exact hs.nonneg t
    · dsimp only; rw [hv']; exact hs.sub
    · dsimp only; rw [hv']; exact hs.dead
    · intro t a h
      dsimp only at h
      by_cases e : t = s
      · subst e; rw [updI_self] at h; exact absurd h (by simp)
      · rw [updI_ne e] at h; exact hs.best t a h
    · intro t; dsimp only; rw [hv]
    · intro t e; exact ⟨hv t, updI_ne e⟩
  · rw [if_neg hg]
    dsimp only
    rcases minLoop_spec p.v (env.acts s) with ⟨he, hm⟩ | ⟨a, ha, hm, hmin⟩
    · rw [hm]
      dsimp only
      have hmono : ∀ t, p.v t ≤ updI p.v s (INFINITECOST : ℚ) t := by
        intro t
        by_cases e : t = s
        · subst e; rw [updI_self]; exact hs.dead t he
        · rw [updI_ne e]
      have hbn : (p.best s).isNone = true := by
        cases hb : p.best s with
        | none => rfl
        | some a => have := (hs.best s a hb).2; rw [he] at this; exact absurd this (by simp)
      rw [if_pos hbn]
      refine ⟨⟨?_, ?_, ?_, ?_, ?_⟩, hmono, ?_, rfl, rfl, Or.inr (Or.inl ⟨hg, he, updI_self, rfl⟩)⟩
      · dsimp only; rw [updI_ne (Ne.symm hg)]; exact hs.goal0
      · intro t; exact le_trans (hs.nonneg t) (hmono t)
      · intro t ht a ha
        dsimp only
        by_cases e : t = s
        · subst e; rw [he] at ha; exact absurd ha (by simp)
        · rw [updI_ne e]; exact le_trans (hs.sub t ht a ha) (Q_mono hp hmono ha)
      · intro t ht
        dsimp only
        by_cases e : t = s
        · subst e; rw [updI_self]
        · rw [updI_ne e]; exact hs.dead t ht
      · intro t a h
        dsimp only at h
        by_cases e : t = s
        · subst e; rw [updI_self] at h; exact absurd h (by simp)
        · rw [updI_ne e] at h; exact hs.best t a h
      · intro t e; exact ⟨updI_ne e, updI_ne e⟩
    · rw [hm]
      dsimp only
      have h0 : p.v s ≤ Q p.v a := hs.sub s hg a ha
      have hmono : ∀ t, p.v t ≤ updI p.v s (Q p.v a) t := by
        intro t
        by_cases e : t = s
        · subst e; rw [updI_self]; exact h0
        · rw [updI_ne e]
      refine ⟨⟨?_, ?_, ?_, ?_, ?_⟩, hmono, ?_, rfl, rfl, Or.inr (Or.inr ⟨a, hg, ha, updI_self, updI_self, ?_⟩)⟩
      · dsimp only; rw [updI_ne (Ne.symm hg)]; exact hs.goal0
      · intro t; exact le_trans (hs.nonneg t) (hmono t)
      · intro t ht x hx
        dsimp only
        by_cases e : t = s
        · subst e; rw [updI_self]; exact le_trans (hmin x hx) (Q_mono hp hmono hx)
        · rw [updI_ne e]; exact le_trans (hs.sub t ht x hx) (Q_mono hp hmono hx)
      · intro t ht
        dsimp only
        by_cases e : t = s
        · subst e; rw [ht] at ha; exact absurd ha (by simp)
        · rw [updI_ne e]; exact hs.dead t ht
      · intro t x h
        dsimp only at h
        by_cases e : t = s
        · subst e; rw [updI_self] at h; cases h; exact ⟨hg, ha⟩
        · rw [updI_ne e] at h; exact hs.best t x h
      · intro t e; exact ⟨updI_ne e, updI_ne e⟩
      · have habs : |p.v s - Q p.v a| = Q p.v a - p.v s := by rw [abs_sub_comm, abs_of_nonneg (by linarith)]
        dsimp only
        rw [updI_self, habs]
        cases hb : p.best s with
        | none => left; exact ⟨rfl, by simp⟩
        | some x =>
          right
          refine ⟨by simp, ?_⟩
          rw [if_neg (by simp)]
          by_cases hd : b < Q p.v a - p.v s
          · rw [if_pos hd]; exact Or.inr ⟨rfl, hd⟩
          · rw [if_neg hd]; exact Or.inl ⟨rfl, not_lt.mp hd⟩

/-- the effect of marking and pushing the outcomes `os` -/
structure PSpec (os : List (Int × Int × ℚ)) (p : St) (wl : List Int) (p' : St) (wl' : List Int) : Prop where
  v : p'.v = p.v
  best : p'.best = p.best
  iteration : p'.iteration = p.iteration
  marked : ∀ o ∈ os, p'.iter o.1 = p.iteration
  iter : ∀ t, p'.iter t = p.iter t ∨ p'.iter t = p.iteration ∧ p.iter t ≠ p.iteration ∧ t ∈ wl'
  wl : ∃ new, wl' = new ++ wl ∧ new.Nodup ∧ ∀ t ∈ new, p.iter t ≠ p.iteration ∧ p'.iter t = p.iteration ∧ ∃ o ∈ os, o.1 = t

theorem pspec_refl {os : List (Int × Int × ℚ)} {p : St} {wl : List Int} (h : ∀ o ∈ os, p.iter o.1 = p.iteration) : PSpec os p wl p wl :=
  ⟨rfl, rfl, rfl, h, fun _ => Or.inl rfl, [], rfl, List.nodup_nil, by simp⟩

theorem pushLoop_spec : ∀ {os : List (Int × Int × ℚ)} {p : St} {wl : List Int}, PSpec os p wl (pushLoop os p wl).1 (pushLoop os p wl).2
  | [], p, wl => pspec_refl (by simp)
  | (t, c, q) :: os, p, wl => by
    rw [pushLoop]
    by_cases h : p.iter t = p.iteration
    · rw [if_neg (by simpa using h)]
      obtain ⟨h1, h2, h3, h4, h5, new, h6, h7, h8⟩ := pushLoop_spec (os := os) (p := p) (wl := wl)
      refine ⟨h1, h2, h3, ?_, h5, new, h6, h7, ?_⟩
      · intro o ho
        rcases List.mem_cons.mp ho with rfl | ho
        · dsimp only
          rcases h5 t with e | e
          · rw [e, h]
          · exact e.1
        · exact h4 o ho
      · intro x hx
        obtain ⟨a, b, o, ho, e⟩ := h8 x hx
        exact ⟨a, b, o, List.mem_cons_of_mem _ ho, e⟩
    · rw [if_pos h]
      obtain ⟨h1, h2, h3, h4, h5, new, h6, h7, h8⟩ := pushLoop_spec (os := os) (p := { p with iter := updI p.iter t p.iteration }) (wl := t :: wl)
      dsimp only at h1 h2 h3 h4 h5 h8
      have ht : (pushLoop os { p with iter := updI p.iter t p.iteration } (t :: wl)).1.iter t = p.iteration := by
        rcases h5 t with e | e
        · rw [e, updI_self]
        · exact e.1
      refine ⟨h1, h2, h3, ?_, ?_, new ++ [t], ?_, ?_, ?_⟩
      · intro o ho
        rcases List.mem_cons.mp ho with rfl | ho
        · exact ht
        · exact h4 o ho
      · intro x
        by_cases e : x = t
        · subst e
          right
          refine ⟨ht, h, ?_⟩
          rw [h6]; simp
        · rcases h5 x with y | ⟨y1, y2, y3⟩
          · left; rw [y, updI_ne e]
          · right; rw [updI_ne e] at y2; exact ⟨y1, y2, y3⟩
      · rw [h6]; simp
      · refine List.nodup_append.mpr ⟨h7, (by simp), ?_⟩
        intro x hx y hy
        rw [List.mem_singleton] at hy
        subst hy
        intro e
        subst e
        exact (h8 x hx).1 (by rw [updI_self])
      · intro x hx
        rcases List.mem_append.mp hx with hx | hx
        · obtain ⟨a, b, o, ho, e⟩ := h8 x hx
          refine ⟨?_, b, o, List.mem_cons_of_mem _ ho, e⟩
          by_cases e : x = t
          · subst e; exact h
          · rw [updI_ne e] at a; exact a
        · rw [List.mem_singleton] at hx
          subst hx
          exact ⟨h, ht, _, List.mem_cons_self, rfl⟩

theorem pushLoop_marked : ∀ {os : List (Int × Int × ℚ)} {p : St} {wl : List Int}, (∀ o ∈ os, p.iter o.1 = p.iteration) → pushLoop os p wl = (p, wl)
  | [], _, _, _ => rfl
  | (t, c, q) :: os, p, wl, h => by
    have h1 := h _ List.mem_cons_self
    dsimp only at h1
    rw [pushLoop, if_neg (by simpa using h1)]
    exact pushLoop_marked (fun o ho => h o (List.mem_cons_of_mem _ ho))

theorem pushRep_none : ∀ {n : Nat} {p : St} {wl : List Int}, pushRep none n p wl = (p, wl)
  | 0, _, _ => rfl
  | n + 1, p, wl => by rw [pushRep]; exact pushRep_none

theorem pushRep_marked {a : Action} : ∀ {n : Nat} {p : St} {wl : List Int}, (∀ o ∈ a.outs, p.iter o.1 = p.iteration) → pushRep (some a) n p wl = (p, wl)
  | 0, _, _, _ => rfl
  | n + 1, p, wl, h => by
    rw [pushRep]
    rw [pushLoop_marked h]
    exact pushRep_marked h

/-- the repetitions of the loop change nothing -/
theorem pushRep_some {a : Action} {n : Nat} {p : St} {wl : List Int} (h : n ≠ 0) : pushRep (some a) n p wl = pushLoop a.outs p wl := by
  cases n with
  | zero => exact absurd rfl h
  | succ n =>
    rw [pushRep]
    refine (pushRep_marked ?_).trans rfl
    have hs := pushLoop_spec (os := a.outs) (p := p) (wl := wl)
    intro o ho
    rw [hs.marked o ho, hs.iteration]

end VI
end Sbpl
