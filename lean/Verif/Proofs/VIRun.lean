import Verif.Proofs.VIPass
import Verif.Spec.EvalPolicy
/-! # Proofs about value iteration: the main loop, the policy -/

namespace Sbpl
namespace VI
open MDP VISpec

variable {env : VEnv} {goal start : Int}

/-- values only grow and stay below the values of all actions -/
theorem passLoop_sub (hp : Proper env.acts) :
    ∀ {fuel : Nat} {p : St} {b : ℚ} {wl : List Int} {p' : St} {b' : ℚ}, Sub env goal p →
      passLoop env goal fuel p b wl = some (p', b') → Sub env goal p' ∧ ∀ t, p.v t ≤ p'.v t
  | fuel, p, b, [], p', b', hs, h => by
    have h : some (p, b) = some (p', b') := by
      rw [← h]; cases fuel <;> rfl
    cases h
    exact ⟨hs, fun _ => le_refl _⟩
  | 0, p, b, s :: wl, p', b', _, h => by cases h
  | fuel + 1, p, b, s :: wl, p', b', hs, h => by
    rw [passLoop] at h
    have hB := backup_spec (s := s) (b := b) hp hs
    rcases hr : backup env goal s p b with ⟨p1, b1⟩
    rw [hr] at h hB
    dsimp only at h hB
    obtain ⟨os, hP, hos⟩ := expand_spec (s := s) (wl := wl) hB.sub
    rcases hq : pushRep (p1.best s) (env.acts s).length p1 wl with ⟨p2, wl2⟩
    rw [hq] at h hP
    dsimp only at h hP
    obtain ⟨h1, h2⟩ := passLoop_sub hp (hB.sub.of_eq hP.v hP.best) h
    refine ⟨h1, fun t => le_trans (hB.mono t) ?_⟩
    have := h2 t
    rw [hP.v] at this
    exact this

theorem iterate_sub (hp : Proper env.acts) {clk : Nat → Bool} {fuel : Nat} :
    ∀ {n k : Nat} {p : St} {b : ℚ} {p' : St} {b' : ℚ}, Sub env goal p → iterate env start goal clk fuel n k p b = some (p', b') →
      Sub env goal p' ∧ ∀ t, p.v t ≤ p'.v t
  | 0, k, p, b, p', b', _, h => by cases h
  | n + 1, k, p, b, p', b', hs, h => by
    rw [iterate] at h
    split at h
    · split at h
      · cases h
      · rename_i p1 b1 hq
        have hs0 : Sub env goal { p with iteration := p.iteration + 1 } := hs.of_eq rfl rfl
        obtain ⟨h1, h2⟩ := passLoop_sub hp hs0 hq
        obtain ⟨h3, h4⟩ := iterate_sub hp h1 h
        exact ⟨h3, fun t => le_trans (h2 t) (h4 t)⟩
    · cases h; exact ⟨hs, fun _ => le_refl _⟩

/-- the main loop, started with marks not above the iteration number -/
theorem iterate_spec (hp : Proper env.acts) {clk : Nat → Bool} {fuel : Nat} :
    ∀ {n k : Nat} {p : St} {b : ℚ} {p' : St} {b' : ℚ}, Sub env goal p → (∀ t, p.iter t ≤ p.iteration) →
      iterate env start goal clk fuel n k p b = some (p', b') →
      (∀ t, p'.iter t ≤ p'.iteration) ∧ ((b ≤ ERRDELTA → Settled env goal start p) → b' ≤ ERRDELTA → Settled env goal start p')
  | 0, k, p, b, p', b', _, _, h => by cases h
  | n + 1, k, p, b, p', b', hs, hm, h => by
    rw [iterate] at h
    split at h
    · split at h
      · cases h
      · rename_i p1 b1 hq
        obtain ⟨h1, h2, h3, h4, h5⟩ := pass_spec hp hs hm hq
        obtain ⟨j1, j2⟩ := iterate_spec hp h1 h3 h
        exact ⟨j1, fun _ => j2 h5⟩
    · cases h; exact ⟨hm, fun h => h⟩

/-- the main loop ends when the time is over -/
theorem iterate_time (hp : Proper env.acts) {S : List Int} (hT : ∀ s, s ∈ S → ∀ a ∈ env.acts s, ∀ o ∈ a.outs, o.1 ∈ S) (hst : start ∈ S) {clk : Nat → Bool} {fuel K : Nat}
    (hK : clk K = false) (hf : S.length < fuel) :
    ∀ {n k : Nat} {p : St} {b : ℚ}, Sub env goal p → (∀ t, p.iter t ≤ p.iteration) → k ≤ K → K < n + k → ∃ r, iterate env start goal clk fuel n k p b = some r
  | 0, k, p, b, _, _, h1, h2 => by omega
  | n + 1, k, p, b, hs, hm, h1, h2 => by
    rw [iterate]
    by_cases hc : clk k = true ∧ b > ERRDELTA
    · rw [if_pos hc]
      obtain ⟨⟨p1, b1⟩, hq⟩ := pass_ends hp hT hst hs hm hf
      rw [hq]
      dsimp only
      obtain ⟨k1, k2, k3, k4, k5⟩ := pass_spec hp hs hm hq
      have : k ≠ K := by
        intro e; subst e
        rw [hK] at hc; exact absurd hc.1 (by simp)
      exact iterate_time hp hT hst hK hf k1 k3 (by omega) (by omega)
    · rw [if_neg hc]; exact ⟨_, rfl⟩

/-- the main loop ends, because the values converge -/
theorem iterate_conv (hp : Proper env.acts) {S : List Int} (hT : ∀ s, s ∈ S → ∀ a ∈ env.acts s, ∀ o ∈ a.outs, o.1 ∈ S) (hst : start ∈ S) (hd : ∀ s ∈ S, env.acts s ≠ [] ∨ s = goal)
    {B : ℚ} (hB : ∀ p, Sub env goal p → ∀ s ∈ S, p.v s ≤ B) {clk : Nat → Bool} {fuel : Nat} (hf : S.length < fuel) :
    ∀ {n k : Nat} {p : St} {b : ℚ}, Sub env goal p → (∀ t, p.iter t ≤ p.iteration) → (ERRDELTA < b → Phi S B p + 1 < n) → 0 < n →
      ∃ p' b', iterate env start goal clk fuel n k p b = some (p', b') ∧ ((∀ j, clk j = true) → b' ≤ ERRDELTA)
  | 0, k, p, b, _, _, _, h2 => by omega
  | n + 1, k, p, b, hs, hm, h1, _ => by
    rw [iterate]
    by_cases hc : clk k = true ∧ b > ERRDELTA
    · rw [if_pos hc]
      obtain ⟨⟨p1, b1⟩, hq⟩ := pass_ends hp hT hst hs hm hf
      rw [hq]
      dsimp only
      obtain ⟨k1, k2, k3, k4, k5⟩ := pass_spec hp hs hm hq
      have hphi := h1 hc.2
      have hpos : 0 ≤ Phi S B p := by
        unfold Phi
        have : (S.map (fun _ => (0 : ℚ))).sum ≤ (S.map (gap B p)).sum := sum_le_sum (fun s hsS => by
          unfold gap
          have := hB p hs s hsS
          have h' : (0 : ℚ) ≤ (if (p.best s).isNone = true then (1 : ℚ) else 0) := by split <;> norm_num
          linarith)
        simpa using this
      push_cast at hphi
      have hn : 0 < n := by
        have : (0 : ℚ) < n := by linarith
        exact_mod_cast this
      exact iterate_conv hp hT hst hd hB hf k1 k3 (fun hb => by
        have := phi_pass (B := B) hp hT hd hs hst hq hb
        linarith) hn
    · rw [if_neg hc]
      refine ⟨p, b, rfl, fun h => ?_⟩
      by_contra hb
      exact hc ⟨h k, not_le.mp hb⟩

/-! ## The policy -/

/-- the MDP built so far -/
structure MI (goal : Int) (bst : Int → Option Action) (T : Int → Prop) (m : List State) (p : St) (wl : List Int) : Prop where
  best : p.best = bst
  nodup : (m.map (fun s => s.id) ++ wl).Nodup
  mark : ∀ t, p.iter t = p.iteration ↔ t ∈ m.map (fun s => s.id) ++ wl
  cl : ∀ t ∈ m.map (fun s => s.id) ++ wl, T t
  sts : ∀ s ∈ m, (s.actions = [] ∧ (s.id = goal ∨ bst s.id = none)) ∨ ∃ a, s.id ≠ goal ∧ s.actions = [a] ∧ bst s.id = some a ∧ ∀ o ∈ a.outs, p.iter o.1 = p.iteration

theorem mi_noaction {best : Int → Option Action} {T : Int → Prop} {m : List State} {p : St} {s : Int} {wl : List Int} (h : MI goal best T m p (s :: wl))
    (hs : s = goal ∨ best s = none) : MI goal best T (m ++ [⟨s, [], []⟩]) p wl := by
  have e : (m ++ [(⟨s, [], []⟩ : State)]).map (fun s => s.id) ++ wl = m.map (fun s => s.id) ++ s :: wl := by simp
  refine ⟨h.best, by rw [e]; exact h.nodup, fun t => by rw [e]; exact h.mark t, fun t ht => by rw [e] at ht; exact h.cl t ht, ?_⟩
  intro x hx
  rcases List.mem_append.mp hx with hx | hx
  · exact h.sts x hx
  · rw [List.mem_singleton] at hx
    subst hx
    exact Or.inl ⟨rfl, hs⟩

theorem mi_action {best : Int → Option Action} {T : Int → Prop} {m : List State} {p : St} {s : Int} {wl : List Int} (h : MI goal best T m p (s :: wl))
    {a : Action} (hg : s ≠ goal) (ha : best s = some a) (hT : ∀ o ∈ a.outs, T o.1) {p2 : St} {wl2 : List Int} (hq : pushLoop a.outs p wl = (p2, wl2)) :
    MI goal best T (m ++ [⟨s, [a], []⟩]) p2 wl2 := by
  have hP := pushLoop_spec (os := a.outs) (p := p) (wl := wl)
  rw [hq] at hP
  dsimp only at hP
  obtain ⟨new, hn1, hn2, hn3⟩ := hP.wl
  subst hn1
  have e : (m ++ [(⟨s, [a], []⟩ : State)]).map (fun s => s.id) = m.map (fun s => s.id) ++ [s] := by simp
  have hmk : ∀ t, p2.iter t = p2.iteration ↔ t ∈ new ∨ t ∈ m.map (fun s => s.id) ++ s :: wl := by
    intro t
    rw [hP.iteration]
    constructor
    · intro ht
      rcases hP.iter t with e' | ⟨_, _, e'⟩
      · rw [e'] at ht; exact Or.inr ((h.mark t).mp ht)
      · rcases List.mem_append.mp e' with e' | e'
        · exact Or.inl e'
        · right; simp [e']
    · rintro (ht | ht)
      · exact (hn3 t ht).2.1
      · have := (h.mark t).mpr ht
        rcases hP.iter t with e' | ⟨e', _⟩
        · rw [e', this]
        · exact e'
  have hnot : ∀ t ∈ new, t ∉ m.map (fun s => s.id) ++ s :: wl := fun t ht hh => (hn3 t ht).1 ((h.mark t).mpr hh)
  have hmem : ∀ t, t ∈ (m ++ [(⟨s, [a], []⟩ : State)]).map (fun s => s.id) ++ (new ++ wl) ↔ t ∈ new ∨ t ∈ m.map (fun s => s.id) ++ s :: wl := by
    intro t
    rw [e]
    simp only [List.mem_append, List.mem_cons, List.not_mem_nil, or_false]
    tauto
  refine ⟨hP.best.trans h.best, ?_, ?_, ?_, ?_⟩
  · rw [e]
    have h1 := h.nodup
    rw [List.nodup_append] at h1
    obtain ⟨a1, a2, a3⟩ := h1
    rw [List.nodup_cons] at a2
    rw [List.nodup_append, List.nodup_append, List.nodup_append]
    refine ⟨⟨a1, by simp, ?_⟩, ⟨hn2, a2.2, ?_⟩, ?_⟩
    · intro x hx y hy
      rw [List.mem_singleton] at hy
      subst hy
      exact a3 x hx y List.mem_cons_self
    · intro x hx y hy e
      subst e
      exact hnot x hx (by simp [hy])
    · intro x hx y hy e
      subst e
      rcases List.mem_append.mp hy with hy | hy
      · apply hnot x hy
        rcases List.mem_append.mp hx with hx | hx
        · exact List.mem_append_left _ hx
        · rw [List.mem_singleton] at hx; subst hx; simp
      · rcases List.mem_append.mp hx with hx | hx
        · exact a3 x hx x (List.mem_cons_of_mem _ hy) rfl
        · rw [List.mem_singleton] at hx
          subst hx
          exact a2.1 hy
  · intro t; rw [hmk, hmem]
  · intro t ht
    rcases (hmem t).mp ht with ht | ht
    · obtain ⟨_, _, o, ho, e⟩ := hn3 t ht
      rw [← e]; exact hT o ho
    · exact h.cl t ht
  · intro x hx
    rcases List.mem_append.mp hx with hx | hx
    · rcases h.sts x hx with k | ⟨b, k1, k2, k3, k4⟩
      · exact Or.inl k
      · refine Or.inr ⟨b, k1, k2, k3, fun o ho => ?_⟩
        rw [hP.iteration]
        have := k4 o ho
        rcases hP.iter o.1 with e' | ⟨e', _⟩
        · rw [e', this]
        · exact e'
    · rw [List.mem_singleton] at hx
      subst hx
      refine Or.inr ⟨a, hg, rfl, ha, fun o ho => ?_⟩
      rw [hP.iteration]; exact hP.marked o ho

theorem polLoop_spec {best : Int → Option Action} {T : Int → Prop} (hT : ∀ s a, T s → s ≠ goal → best s = some a → ∀ o ∈ a.outs, T o.1) :
    ∀ {fuel : Nat} {m : List State} {p : St} {wl : List Int} {m' : List State} {p' : St}, MI goal best T m p wl → polLoop goal fuel m p wl = some (m', p') →
      MI goal best T m' p' [] ∧ (∃ x, m' = m ++ x) ∧ p'.v = p.v ∧ ∀ t ∈ wl, ∃ s ∈ m', s.id = t
  | fuel, m, p, [], m', p', h, hr => by
    have hr : some (m, p) = some (m', p') := by rw [← hr]; cases fuel <;> rfl
    cases hr
    exact ⟨h, ⟨[], by simp⟩, rfl, by simp⟩
  | 0, m, p, s :: wl, m', p', h, hr => by cases hr
  | fuel + 1, m, p, s :: wl, m', p', h, hr => by
    rw [polLoop] at hr
    by_cases hg : s = goal
    · rw [if_pos hg] at hr
      obtain ⟨h1, ⟨x, h2⟩, h3, h4⟩ := polLoop_spec hT (mi_noaction h (Or.inl hg)) hr
      refine ⟨h1, ⟨_, by rw [h2, List.append_assoc]⟩, h3, ?_⟩
      intro t ht
      rcases List.mem_cons.mp ht with rfl | ht
      · exact ⟨_, by rw [h2]; simp; exact Or.inr (Or.inl rfl), rfl⟩
      · exact h4 t ht
    · rw [if_neg hg] at hr
      have hTs : T s := h.cl s (by simp)
      cases hb : p.best s with
      | none =>
        rw [hb] at hr
        dsimp only at hr
        obtain ⟨h1, ⟨x, h2⟩, h3, h4⟩ := polLoop_spec hT (mi_noaction h (Or.inr (by rw [← h.best]; exact hb))) hr
        refine ⟨h1, ⟨_, by rw [h2, List.append_assoc]⟩, h3, ?_⟩
        intro t ht
        rcases List.mem_cons.mp ht with rfl | ht
        · exact ⟨_, by rw [h2]; simp; exact Or.inr (Or.inl rfl), rfl⟩
        · exact h4 t ht
      | some a =>
        rw [hb] at hr
        dsimp only at hr
        rcases hq : pushLoop a.outs p wl with ⟨p2, wl2⟩
        rw [hq] at hr
        dsimp only at hr
        have hb' : best s = some a := by rw [← h.best]; exact hb
        have hP := pushLoop_spec (os := a.outs) (p := p) (wl := wl)
        rw [hq] at hP
        dsimp only at hP
        obtain ⟨h1, ⟨x, h2⟩, h3, h4⟩ := polLoop_spec hT (mi_action h hg hb' (hT s a hTs hg hb') hq) hr
        refine ⟨h1, ⟨_, by rw [h2, List.append_assoc]⟩, h3.trans hP.v, ?_⟩
        intro t ht
        rcases List.mem_cons.mp ht with rfl | ht
        · exact ⟨_, by rw [h2]; simp; exact Or.inr (Or.inl rfl), rfl⟩
        · obtain ⟨new, hn1, _⟩ := hP.wl
          exact h4 t (by rw [hn1]; exact List.mem_append_right _ ht)

theorem polLoop_ends {best : Int → Option Action} {S : List Int} (hT : ∀ s a, s ∈ S → s ≠ goal → best s = some a → ∀ o ∈ a.outs, o.1 ∈ S) :
    ∀ {fuel : Nat} {m : List State} {p : St} {wl : List Int}, MI goal best (fun t => t ∈ S) m p wl → S.length ≤ fuel + m.length → ∃ r, polLoop goal fuel m p wl = some r
  | fuel, m, p, [], h, hf => ⟨(m, p), by cases fuel <;> rfl⟩
  | 0, m, p, s :: wl, h, hf => by
    have := nodup_len_le h.nodup (fun t ht => h.cl t ht)
    simp only [List.length_append, List.length_cons, List.length_map] at this
    omega
  | fuel + 1, m, p, s :: wl, h, hf => by
    rw [polLoop]
    by_cases hg : s = goal
    · rw [if_pos hg]
      exact polLoop_ends hT (mi_noaction h (Or.inl hg)) (by simp only [List.length_append, List.length_cons, List.length_nil]; omega)
    · rw [if_neg hg]
      have hTs : s ∈ S := h.cl s (by simp)
      cases hb : p.best s with
      | none =>
        dsimp only
        exact polLoop_ends hT (mi_noaction h (Or.inr (by rw [← h.best]; exact hb))) (by simp only [List.length_append, List.length_cons, List.length_nil]; omega)
      | some a =>
        dsimp only
        rcases hq : pushLoop a.outs p wl with ⟨p2, wl2⟩
        dsimp only
        have hb' : best s = some a := by rw [← h.best]; exact hb
        exact polLoop_ends hT (mi_action h hg hb' (hT s a hTs hg hb') hq) (by simp only [List.length_append, List.length_cons, List.length_nil]; omega)

/-- the invariant holds when PrintPolicy begins -/
theorem mi_init {T : Int → Prop} {p : St} (hm : ∀ t, p.iter t ≤ p.iteration) (hT : T start) :
    MI goal p.best T [] { p with iteration := p.iteration + 1, iter := updI p.iter start (p.iteration + 1) } [start] := by
  refine ⟨rfl, by simp, ?_, by simpa using hT, by simp⟩
  intro t
  dsimp only
  by_cases e : t = start
  · subst e; simp [updI_self]
  · rw [updI_ne e]
    have := hm t
    simp only [List.map_nil, List.nil_append, List.mem_singleton, e, iff_false]
    omega

/-- the policy built by PrintPolicy: exactly the states met under the best actions, each with its best action -/
theorem policyOf_spec {p p' : St} {m : List State} {fuel : Nat} (hm : ∀ t, p.iter t ≤ p.iteration) (h : policyOf start goal fuel p = some (m, p')) :
    (m.map (fun s => s.id)).Nodup ∧ (∀ t, t ∈ m.map (fun s => s.id) ↔ Meets p.best goal start t) ∧ p'.v = p.v ∧ p'.best = p.best ∧
    ∀ s ∈ m, (s.actions = [] ∧ (s.id = goal ∨ p.best s.id = none)) ∨ ∃ a, s.id ≠ goal ∧ s.actions = [a] ∧ p.best s.id = some a := by
  unfold policyOf at h
  obtain ⟨h1, _, h3, h4⟩ := polLoop_spec (T := Meets p.best goal start) (fun s a hs hg hb o ho => Meets.step hs hg hb ho) (mi_init hm Meets.start) h
  have hn := h1.nodup
  rw [List.append_nil] at hn
  refine ⟨hn, ?_, h3, h1.best, ?_⟩
  · intro t
    constructor
    · intro ht; exact h1.cl t (by rw [List.append_nil]; exact ht)
    · intro ht
      induction ht with
      | start =>
        obtain ⟨s, hs, e⟩ := h4 start (by simp)
        exact List.mem_map.mpr ⟨s, hs, e⟩
      | step hs hg hb ho ih =>
        obtain ⟨x, hx, e⟩ := List.mem_map.mp ih
        subst e
        rcases h1.sts x hx with ⟨_, k | k⟩ | ⟨a, _, _, k1, k2⟩
        · exact absurd k hg
        · rw [hb] at k; exact absurd k (by simp)
        · rw [hb] at k1; cases k1
          have := (h1.mark _).mp (k2 _ ho)
          rwa [List.append_nil] at this
  · intro s hs
    rcases h1.sts s hs with k | ⟨a, k1, k2, k3, _⟩
    · exact Or.inl k
    · exact Or.inr ⟨a, k1, k2, k3⟩

theorem policyOf_ends {p : St} {S : List Int} (hm : ∀ t, p.iter t ≤ p.iteration) (hst : start ∈ S)
    (hT : ∀ s a, s ∈ S → s ≠ goal → p.best s = some a → ∀ o ∈ a.outs, o.1 ∈ S) {fuel : Nat} (hf : S.length ≤ fuel) : ∃ r, policyOf start goal fuel p = some r :=
  polLoop_ends hT (mi_init hm hst) (by simpa using hf)

end VI
end Sbpl
