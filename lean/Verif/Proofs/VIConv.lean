import Verif.Props.VIAny
/-!
# Value iteration on a finite graph converges, whatever the heuristic

Potential: every state counts `±M^(B - value)`, `-` if an edge justifies its value (edge cost + value of the end ≤ value).  A backup that changes a value from `y` to `y'`, `x = min y y'`, does not
change the states of value less than `x` nor whether states of value at most `x` are justified; it takes an unjustified state away from level `x`, or adds a justified one.
-/

namespace Sbpl
namespace VIConv
open GraphSpec MDP VISpec VI VIProps VIAnyProps

/-- an edge justifies the value of `s` -/
def Just (succs : Nat → List (Nat × Nat)) (w : Nat → Nat) (s : Nat) : Prop := ∃ e ∈ succs s, e.2 + w e.1 ≤ w s

instance {succs : Nat → List (Nat × Nat)} {w : Nat → Nat} {s : Nat} : Decidable (Just succs w s) := by unfold Just; infer_instance

def term (succs : Nat → List (Nat × Nat)) (B M : Nat) (w : Nat → Nat) (s : Nat) : ℤ := if Just succs w s then -((M : ℤ) ^ (B - w s)) else (M : ℤ) ^ (B - w s)

def Pot (succs : Nat → List (Nat × Nat)) (B : Nat) (S : List Nat) (w : Nat → Nat) : ℤ := (S.map (term succs B (2 * S.length + 1) w)).sum

theorem sum_le {f g : Nat → ℤ} {d : ℤ} : ∀ {l : List Nat}, (∀ t ∈ l, f t ≤ g t + d) → (l.map f).sum ≤ (l.map g).sum + l.length * d
  | [], _ => by simp
  | y :: l, h => by
    have h1 := sum_le (l := l) (fun t ht => h t (List.mem_cons_of_mem _ ht))
    have h2 := h y List.mem_cons_self
    simp only [List.map_cons, List.sum_cons, List.length_cons]
    push_cast
    linarith [add_mul (l.length : ℤ) 1 d]

theorem sum_le_one {f g : Nat → ℤ} {d e : ℤ} {s : Nat} : ∀ {l : List Nat}, l.Nodup → s ∈ l → (∀ t ∈ l, t ≠ s → f t ≤ g t + d) → f s ≤ g s + e →
    (l.map f).sum ≤ (l.map g).sum + (l.length - 1) * d + e
  | [], _, hs, _, _ => by cases hs
  | y :: l, hn, hs, h1, h2 => by
    obtain ⟨hy, hn⟩ := List.nodup_cons.mp hn
    simp only [List.map_cons, List.sum_cons, List.length_cons]
    push_cast
    by_cases e' : y = s
    · subst e'
      have := sum_le (l := l) (fun t ht => h1 t (List.mem_cons_of_mem _ ht) (fun e => hy (e ▸ ht)))
      linarith
    · have hs' : s ∈ l := (List.mem_cons.mp hs).resolve_left (fun e => e' e.symm)
      have k1 := sum_le_one hn hs' (fun t ht => h1 t (List.mem_cons_of_mem _ ht)) h2
      have k2 := h1 y List.mem_cons_self e'
      linarith [sub_mul (l.length : ℤ) 1 d, add_sub_cancel_right (l.length : ℤ) 1]

variable {succs : Nat → List (Nat × Nat)}

theorem term_le (B M : Nat) (w : Nat → Nat) (s : Nat) : term succs B M w s ≤ (M : ℤ) ^ (B - w s) := by
  unfold term
  have : (0 : ℤ) ≤ (M : ℤ) ^ (B - w s) := by positivity
  split <;> linarith

theorem neg_le_term (B M : Nat) (w : Nat → Nat) (s : Nat) : -((M : ℤ) ^ (B - w s)) ≤ term succs B M w s := by
  unfold term
  have : (0 : ℤ) ≤ (M : ℤ) ^ (B - w s) := by positivity
  split <;> linarith

theorem pow_le {M a b : Nat} (hM : 1 ≤ M) (h : a ≤ b) : (M : ℤ) ^ a ≤ (M : ℤ) ^ b := by
  exact_mod_cast Nat.pow_le_pow_right hM h

/-- a backup that changes a value lowers the potential -/
theorem pot_drop (hc : ∀ s t c, (t, c) ∈ succs s → 1 ≤ c) {S : List Nat} (hn : S.Nodup) {B : Nat} {w w' : Nat → Nat} {s : Nat} (hs : s ∈ S) (hw : ∀ t, t ≠ s → w' t = w t)
    (hb : w s ≤ B) (hb' : w' s ≤ B) (h1 : ∃ e ∈ succs s, w' s = e.2 + w e.1) (h2 : ∀ e ∈ succs s, w' s ≤ e.2 + w e.1) (hne : w' s ≠ w s) :
    Pot succs B S w' + 1 ≤ Pot succs B S w := by
  unfold Pot
  generalize hM : 2 * S.length + 1 = M
  obtain ⟨x, hx⟩ : ∃ x, x = min (w s) (w' s) := ⟨_, rfl⟩
  obtain ⟨k, hk⟩ : ∃ k, B - x = k + 1 := ⟨B - x - 1, by omega⟩
  have hM1 : 1 ≤ M := by omega
  have other : ∀ t ∈ S, t ≠ s → term succs B M w' t ≤ term succs B M w t + 2 * (M : ℤ) ^ k := by
    intro t _ ht
    by_cases hl : w t ≤ x
    · have hj : Just succs w' t ↔ Just succs w t := by
        unfold Just
        rw [hw t ht]
        constructor
        · rintro ⟨e, he, h⟩
          have := hc t e.1 e.2 he
          have hes : e.1 ≠ s := fun h' => by rw [h'] at h; omega
          exact ⟨e, he, by rw [hw _ hes] at h; exact h⟩
        · rintro ⟨e, he, h⟩
          have := hc t e.1 e.2 he
          have hes : e.1 ≠ s := fun h' => by rw [h'] at h; omega
          exact ⟨e, he, by rw [hw _ hes]; exact h⟩
      have : term succs B M w' t = term succs B M w t := by
        unfold term
        rw [hw t ht]
        by_cases c : Just succs w t
        · rw [if_pos c, if_pos (hj.mpr c)]
        · rw [if_neg c, if_neg (fun h => c (hj.mp h))]
      have h0 : (0 : ℤ) ≤ (M : ℤ) ^ k := by positivity
      linarith
    · have e1 := term_le (succs := succs) B M w' t
      have e2 := neg_le_term (succs := succs) B M w t
      rw [hw t ht] at e1
      have := pow_le (a := B - w t) (b := k) hM1 (by omega)
      linarith
  have self : term succs B M w' s ≤ term succs B M w s + ((M : ℤ) ^ k - (M : ℤ) ^ (k + 1)) := by
    rcases Nat.lt_or_gt_of_ne hne with hlt | hgt
    · -- the value becomes less: it is justified afterwards
      have hj : Just succs w' s := by
        obtain ⟨e, he, h⟩ := h1
        have := hc s e.1 e.2 he
        have hes : e.1 ≠ s := fun h' => by rw [h'] at h; omega
        exact ⟨e, he, by rw [hw _ hes, h]⟩
      have e1 : term succs B M w' s = -((M : ℤ) ^ (k + 1)) := by
        unfold term
        rw [if_pos hj, show B - w' s = k + 1 by omega]
      have e2 := neg_le_term (succs := succs) B M w s
      have := pow_le (a := B - w s) (b := k) hM1 (by omega)
      linarith
    · -- the value becomes greater: it was not justified before
      have hj : ¬ Just succs w s := by
        rintro ⟨e, he, h⟩
        have := h2 e he
        omega
      have e1 : term succs B M w s = (M : ℤ) ^ (k + 1) := by
        unfold term
        rw [if_neg hj, show B - w s = k + 1 by omega]
      have e2 := term_le (succs := succs) B M w' s
      have := pow_le (a := B - w' s) (b := k) hM1 (by omega)
      linarith
  have := sum_le_one hn hs other self
  have hp : (1 : ℤ) ≤ (M : ℤ) ^ k := by exact_mod_cast Nat.one_le_pow _ _ hM1
  have e : (M : ℤ) ^ (k + 1) = (2 * S.length + 1) * (M : ℤ) ^ k := by
    rw [pow_succ, ← hM]; push_cast; ring
  rw [e] at this
  nlinarith

theorem pot_ge (B : Nat) (S : List Nat) (w : Nat → Nat) : -(S.length * ((2 * S.length + 1 : Nat) : ℤ) ^ B) ≤ Pot succs B S w := by
  unfold Pot
  generalize hM : 2 * S.length + 1 = M
  have : (S.map (fun _ => (0 : ℤ))).sum ≤ (S.map (term succs B (M) w)).sum + S.length * ((M : ℤ) ^ B) := sum_le (fun t _ => by
    have h1 := neg_le_term (succs := succs) B M w t
    have h2 := pow_le (M := M) (a := B - w t) (b := B) (by omega) (by omega)
    linarith)
  simp at this
  linarith

/-! ## The planner -/

variable {acts : Nat → List Action} {h : Nat → Nat}

/-- values are natural numbers on the states of the graph, and at most `K` times the cost of every walk to the goal -/
structure VInv (succs : Nat → List (Nat × Nat)) (S : List Nat) (gl K : Nat) (v : Int → ℚ) : Prop where
  nat : ∀ n ∈ S, ∃ k : Nat, v n = k
  le : ∀ s ∈ S, ∀ n, Walk succs s gl n → v s ≤ ((K * n : Nat) : ℚ)

/-- the values as natural numbers -/
def wv (v : Int → ℚ) (n : Nat) : Nat := (v n).num.toNat

theorem wv_eq {v : Int → ℚ} {n k : Nat} (e : v n = k) : wv v n = k := by
  unfold wv; rw [e]; simp

theorem backup_large {env : VEnv} {goal s : Int} {p : St} {b : ℚ} (h1 : b ≤ ERRDELTA) (h2 : ERRDELTA < (backup env goal s p b).2) :
    s ≠ goal ∧ ((p.best s).isNone = true ∨ (backup env goal s p b).1.v s ≠ p.v s) := by
  unfold backup at h2 ⊢
  by_cases hg : s = goal
  · rw [if_pos hg] at h2; exact absurd h2 (not_lt.mpr h1)
  · rw [if_neg hg] at h2 ⊢
    dsimp only at h2 ⊢
    refine ⟨hg, ?_⟩
    by_cases c1 : (p.best s).isNone = true
    · exact Or.inl c1
    · right
      rw [updI_self]
      rw [if_neg c1] at h2
      intro e
      rw [e] at h2
      have := err_pos
      simp only [sub_self, abs_zero] at h2
      split at h2 <;> linarith

theorem backup_some {env : VEnv} {goal s : Int} {p : St} {b : ℚ} (hg : s ≠ goal) (ha : env.acts s ≠ []) : ((backup env goal s p b).1.best s).isNone = false := by
  unfold backup
  rw [if_neg hg]
  dsimp only
  rw [updI_self]
  rcases minLoop_spec p.v (env.acts s) with ⟨he, _⟩ | ⟨a, _, hm, _⟩
  · exact absurd he ha
  · rw [hm]; rfl

/-- states without a best action -/
def cnt (S : List Nat) (p : St) : ℤ := (S.map (fun n : Nat => if (p.best n).isNone = true then (1 : ℤ) else 0)).sum

def F (succs : Nat → List (Nat × Nat)) (B : Nat) (S : List Nat) (p : St) : ℤ := Pot succs B S (wv p.v) + cnt S p

theorem cnt_nonneg (S : List Nat) (p : St) : 0 ≤ cnt S p := by
  unfold cnt
  have : (S.map (fun _ => (0 : ℤ))).sum ≤ (S.map (fun n : Nat => if (p.best n).isNone = true then (1 : ℤ) else 0)).sum + S.length * 0 := sum_le (fun t _ => by split <;> simp)
  simpa using this

structure Gr (succs : Nat → List (Nat × Nat)) (S : List Nat) (gl : Nat) : Prop where
  nodup : S.Nodup
  closed : ∀ s ∈ S, ∀ t c, (t, c) ∈ succs s → t ∈ S
  cost : ∀ s t c, (t, c) ∈ succs s → 1 ≤ c
  reach : ∀ s ∈ S, ∃ n, Walk succs s gl n

theorem Gr.acts_ne {S : List Nat} {gl : Nat} (g : Gr succs S gl) (he : EdgeActions succs acts) {n : Nat} (hn : n ∈ S) (hg : n ≠ gl) : (vEnvOf acts h).acts (n : Int) ≠ [] := by
  obtain ⟨k, w⟩ := g.reach n hn
  rcases walk_head w with ⟨e, _⟩ | ⟨t, c, _, h1, _, _⟩
  · exact absurd e hg
  · obtain ⟨a, ha, _⟩ := act_edge he h1
    rw [vacts_nat]
    intro e; rw [e] at ha; cases ha

/-- the new value of a state -/
theorem backup_value (he : EdgeActions succs acts) {S : List Nat} {gl : Nat} (g : Gr succs S gl) {n : Nat} (hn : n ∈ S) (hg : n ≠ gl) {p : St} (hw : Wk (vEnvOf acts h) gl p)
    {b : ℚ} : (∃ t c, (t, c) ∈ succs n ∧ (backup (vEnvOf acts h) gl n p b).1.v n = c + p.v t) ∧
      ∀ t c, (t, c) ∈ succs n → (backup (vEnvOf acts h) gl n p b).1.v n ≤ c + p.v t := by
  have hB := backup_wk (s := (n : Int)) (b := b) (graph_proper he) hw
  rcases hB.value with e | e | ⟨a, ha, e1, e2⟩
  · exact absurd (by exact_mod_cast e) hg
  · exact absurd e (g.acts_ne he hn hg)
  · rw [vacts_nat] at ha
    obtain ⟨t, c, h1, h2⟩ := edge_act he ha
    refine ⟨⟨t, c, h1, by rw [e1, Q_edge h2]⟩, fun t' c' h' => ?_⟩
    obtain ⟨a', ha', e'⟩ := act_edge he h'
    rw [e1, ← Q_edge e']
    exact e2 a' (by rw [vacts_nat]; exact ha')

theorem vinv_backup (he : EdgeActions succs acts) {S : List Nat} {gl K : Nat} (hK : 1 ≤ K) (g : Gr succs S gl) {n : Nat} (hn : n ∈ S) {p : St} (hw : Wk (vEnvOf acts h) gl p)
    (hv : VInv succs S gl K p.v) {b : ℚ} : VInv succs S gl K (backup (vEnvOf acts h) gl n p b).1.v := by
  have hB := backup_wk (s := (n : Int)) (b := b) (graph_proper he) hw
  by_cases hg : n = gl
  · subst hg
    have : ∀ x : Nat, (backup (vEnvOf acts h) n n p b).1.v x = p.v x := fun x => by
      by_cases e : x = n
      · subst e; rw [hB.sub.goal0, hw.goal0]
      · exact (hB.frame x (by exact_mod_cast e)).1
    exact ⟨fun x hx => by rw [this]; exact hv.nat x hx, fun x hx m w => by rw [this]; exact hv.le x hx m w⟩
  · obtain ⟨⟨t, c, h1, h2⟩, h3⟩ := backup_value (b := b) he g hn hg hw
    refine ⟨fun x hx => ?_, fun x hx m w => ?_⟩
    · by_cases e : x = n
      · subst e
        obtain ⟨k, hk⟩ := hv.nat t (g.closed _ hn _ _ h1)
        exact ⟨c + k, by rw [h2, hk]; push_cast; rfl⟩
      · rw [(hB.frame x (by exact_mod_cast e)).1]; exact hv.nat x hx
    · by_cases e : x = n
      · subst e
        rcases walk_head w with ⟨e, _⟩ | ⟨t', c', n', k1, k2, rfl⟩
        · exact absurd e hg
        · have k3 := h3 t' c' k1
          have k4 := hv.le t' (g.closed _ hn _ _ k1) n' k2
          have k5 : ((c' : Nat) : ℚ) ≤ ((K * c' : Nat) : ℚ) := by exact_mod_cast Nat.le_mul_of_pos_left c' hK
          rw [Nat.mul_add]
          push_cast at k4 k5 ⊢
          linarith
      · rw [(hB.frame x (by exact_mod_cast e)).1]; exact hv.le x hx m w

/-- a backup does not increase the potential, and lowers it by 1 if the change is large -/
theorem F_step (he : EdgeActions succs acts) {S : List Nat} {gl K B : Nat} (hK : 1 ≤ K) (g : Gr succs S gl) (hB' : ∀ s ∈ S, ∃ n, Walk succs s gl n ∧ K * n ≤ B) {n : Nat} (hn : n ∈ S)
    {p : St} (hw : Wk (vEnvOf acts h) gl p) (hv : VInv succs S gl K p.v) {b : ℚ} :
    F succs B S (backup (vEnvOf acts h) gl n p b).1 ≤ F succs B S p ∧
      (b ≤ ERRDELTA → ERRDELTA < (backup (vEnvOf acts h) gl n p b).2 → F succs B S (backup (vEnvOf acts h) gl n p b).1 + 1 ≤ F succs B S p) := by
  have hv' := vinv_backup (b := b) he hK g hn hw hv
  have hB := backup_wk (s := (n : Int)) (b := b) (graph_proper he) hw
  have hL := fun h1 h2 => backup_large (env := vEnvOf acts h) (goal := gl) (s := n) (p := p) (b := b) h1 h2
  have hS := fun h1 => backup_some (env := vEnvOf acts h) (goal := gl) (s := n) (p := p) (b := b) h1
  have hV := fun hg => backup_value (b := b) he g hn hg hw
  generalize backup (vEnvOf acts h) gl n p b = r at *
  obtain ⟨p', b'⟩ := r
  dsimp only at *
  have hfr : ∀ x : Nat, x ≠ n → p'.v x = p.v x ∧ p'.best x = p.best x := fun x hx => hB.frame x (by exact_mod_cast hx)
  have hwv : ∀ x : Nat, x ≠ n → wv p'.v x = wv p.v x := fun x hx => by unfold wv; rw [(hfr x hx).1]
  by_cases hg : n = gl
  · subst hg
    have e1 : wv p'.v = wv p.v := by
      funext x
      by_cases e : x = n
      · subst e; unfold wv; rw [hB.sub.goal0, hw.goal0]
      · exact hwv x e
    have e2 : ∀ q : St, Wk (vEnvOf acts h) n q → q.best n = none := fun q hq => by
      cases hb : q.best n with
      | none => rfl
      | some a => exact absurd rfl (hq.best _ _ hb).1
    have e3 : cnt S p' = cnt S p := by
      unfold cnt
      congr 1
      refine List.map_congr_left (fun x _ => ?_)
      by_cases e : x = n
      · subst e; rw [e2 _ hB.sub, e2 _ hw]
      · rw [(hfr x e).2]
    unfold F
    rw [e1, e3]
    exact ⟨le_refl _, fun h1 h2 => absurd rfl (hL h1 h2).1⟩
  · have hgi : (n : Int) ≠ gl := by exact_mod_cast hg
    have hsome : (p'.best n).isNone = false := hS hgi (g.acts_ne he hn hg)
    have hcnt : ∀ d : ℤ, ((p.best n).isNone = true → d ≤ 1) → ((p.best n).isNone = false → d ≤ 0) → cnt S p' + d ≤ cnt S p := by
      intro d d1 d2
      have := sum_le_one (f := fun n : Nat => if (p'.best n).isNone = true then (1 : ℤ) else 0) (g := fun n : Nat => if (p.best n).isNone = true then (1 : ℤ) else 0) (d := 0) (e := -d) g.nodup hn
        (fun t _ ht => by rw [(hfr t ht).2]; simp) (by
          simp only [hsome]
          cases hb : (p.best n).isNone with
          | false => have := d2 hb; simp; omega
          | true => have := d1 hb; simp; omega)
      unfold cnt
      linarith
    by_cases hc : p'.v n = p.v n
    · have e1 : wv p'.v = wv p.v := by
        funext x
        by_cases e : x = n
        · subst e; unfold wv; rw [hc]
        · exact hwv x e
      unfold F
      rw [e1]
      refine ⟨by have := hcnt 0 (fun _ => by omega) (fun _ => by omega); linarith, fun h1 h2 => ?_⟩
      rcases (hL h1 h2).2 with hno | hne
      · have := hcnt 1 (fun _ => by omega) (fun h => by rw [hno] at h; cases h)
        linarith
      · exact absurd hc hne
    · obtain ⟨k, hk⟩ := hv.nat n hn
      obtain ⟨k', hk'⟩ := hv'.nat n hn
      obtain ⟨m, wm, hmB⟩ := hB' n hn
      have bd : k ≤ B ∧ k' ≤ B := by
        have a1 := hv.le n hn m wm
        have a2 := hv'.le n hn m wm
        rw [hk] at a1
        rw [hk'] at a2
        have a1 : k ≤ K * m := by exact_mod_cast a1
        have a2 : k' ≤ K * m := by exact_mod_cast a2
        omega
      obtain ⟨⟨t, c, v1, v2⟩, v3⟩ := hV hg
      have hd := pot_drop g.cost g.nodup (B := B) (w := wv p.v) (w' := wv p'.v) hn hwv (by rw [wv_eq hk]; exact bd.1) (by rw [wv_eq hk']; exact bd.2)
        ⟨(t, c), v1, by
          obtain ⟨kt, hkt⟩ := hv.nat t (g.closed _ hn _ _ v1)
          rw [wv_eq hk', wv_eq hkt]
          rw [hk', hkt] at v2
          exact_mod_cast v2⟩
        (fun e he => by
          obtain ⟨kt, hkt⟩ := hv.nat e.1 (g.closed _ hn _ _ he)
          have := v3 e.1 e.2 he
          rw [wv_eq hk', wv_eq hkt]
          rw [hk', hkt] at this
          exact_mod_cast this)
        (by
          rw [wv_eq hk, wv_eq hk']
          intro e
          rw [hk, hk', e] at hc
          exact hc rfl)
      have := hcnt 0 (fun _ => by omega) (fun _ => by omega)
      unfold F
      exact ⟨by linarith, fun _ _ => by linarith⟩

theorem F_of_eq {S : List Nat} {B : Nat} {p q : St} (hv : q.v = p.v) (hb : q.best = p.best) : F succs B S q = F succs B S p := by
  unfold F cnt; rw [hv, hb]

/-- a pass lowers the potential by 1 unless the largest change was small -/
theorem F_passLoop (he : EdgeActions succs acts) {S : List Nat} {gl K B : Nat} (hK : 1 ≤ K) (g : Gr succs S gl) (hB' : ∀ s ∈ S, ∃ n, Walk succs s gl n ∧ K * n ≤ B) :
    ∀ {fuel : Nat} {p : St} {b : ℚ} {wl : List Int} {p' : St} {b' : ℚ}, Wk (vEnvOf acts h) gl p → VInv succs S gl K p.v → (∀ t ∈ wl, ∃ n ∈ S, t = ((n : Nat) : Int)) →
      passLoop (vEnvOf acts h) gl fuel p b wl = some (p', b') →
      VInv succs S gl K p'.v ∧ F succs B S p' ≤ F succs B S p ∧ (b ≤ ERRDELTA → ERRDELTA < b' → F succs B S p' + 1 ≤ F succs B S p)
  | fuel, p, b, [], p', b', _, hv, _, hh => by
    have hh : some (p, b) = some (p', b') := by
      rw [← hh]; cases fuel <;> rfl
    cases hh
    exact ⟨hv, le_refl _, fun h1 h2 => absurd h2 (not_lt.mpr h1)⟩
  | 0, p, b, s :: wl, p', b', _, _, _, hh => by cases hh
  | fuel + 1, p, b, s :: wl, p', b', hs, hv, hw, hh => by
    rw [passLoop] at hh
    obtain ⟨n, hn, rfl⟩ := hw s List.mem_cons_self
    have hB := backup_wk (s := (n : Int)) (b := b) (graph_proper he) hs
    have hv1 := vinv_backup (b := b) he hK g hn hs hv
    have h1 := F_step (b := b) he hK g hB' hn hs hv
    rcases hr : backup (vEnvOf acts h) gl n p b with ⟨p1, b1⟩
    rw [hr] at hh hB hv1 h1
    dsimp only at hh hB hv1 h1
    obtain ⟨os, hP, hos⟩ := expand_wk (s := (n : Int)) (wl := wl) hB.sub
    rcases hq : pushRep (p1.best n) ((vEnvOf acts h).acts n).length p1 wl with ⟨p2, wl2⟩
    rw [hq] at hh hP
    dsimp only at hh hP
    obtain ⟨h3, h2⟩ := F_passLoop he hK g hB' (hB.sub.of_eq hP.v hP.best) (by rw [hP.v]; exact hv1) (by
      intro t ht
      obtain ⟨new, hn1, hn2, hn3⟩ := hP.wl
      rw [hn1] at ht
      rcases List.mem_append.mp ht with ht | ht
      · obtain ⟨_, _, o, ho, e⟩ := hn3 t ht
        rcases hos with ⟨_, e'⟩ | ⟨a, ha, _, e'⟩
        · rw [e'] at ho; exact absurd ho (by simp)
        · rw [e'] at ho; rw [← e]
          rw [vacts_nat] at ha
          obtain ⟨t', c', k1, k2⟩ := edge_act he ha
          rw [k2] at ho; simp at ho; subst ho
          exact ⟨t', g.closed n hn _ _ k1, rfl⟩
      · exact hw t (List.mem_cons_of_mem _ ht)) hh
    rw [F_of_eq hP.v hP.best] at h2
    refine ⟨h3, le_trans h2.1 h1.1, fun hb hb' => ?_⟩
    by_cases hb1 : b1 ≤ ERRDELTA
    · have := h2.2 hb1 hb'; linarith [h1.1]
    · have := h1.2 hb (not_le.mp hb1); linarith [h2.1]

/-- the states of the graph as IDs -/
theorem closedInt (he : EdgeActions succs acts) {S : List Nat} {gl : Nat} (g : Gr succs S gl) :
    ∀ s, s ∈ S.map (fun n : Nat => (n : Int)) → ∀ a ∈ (vEnvOf acts h).acts s, ∀ o ∈ a.outs, o.1 ∈ S.map (fun n : Nat => (n : Int)) := by
  intro s hs a ha o ho
  obtain ⟨n, hn, rfl⟩ := List.mem_map.mp hs
  rw [vacts_nat] at ha
  obtain ⟨t', c', k1, k2⟩ := edge_act he ha
  rw [k2] at ho; simp at ho; subst ho
  exact List.mem_map.mpr ⟨t', g.closed n hn _ _ k1, rfl⟩

/-- the main loop ends because the values do not change any more -/
theorem iterate_conv (he : EdgeActions succs acts) {S : List Nat} {st gl K B : Nat} (hK : 1 ≤ K) (g : Gr succs S gl) (hB' : ∀ s ∈ S, ∃ n, Walk succs s gl n ∧ K * n ≤ B) (hst : st ∈ S)
    {clk : Nat → Bool} {fuel : Nat} (hf : S.length < fuel) :
    ∀ {n k : Nat} {p : St} {b : ℚ}, Wk (vEnvOf acts h) gl p → VInv succs S gl K p.v → (∀ t, p.iter t ≤ p.iteration) →
      (ERRDELTA < b → F succs B S p + S.length * ((2 * S.length + 1 : Nat) : ℤ) ^ B + 1 < n) → 0 < n →
      ∃ p' b', iterate (vEnvOf acts h) st gl clk fuel n k p b = some (p', b') ∧ VInv succs S gl K p'.v ∧ ((∀ j, clk j = true) → b' ≤ ERRDELTA)
  | 0, k, p, b, _, _, _, _, h2 => by omega
  | n + 1, k, p, b, hs, hv, hm, h1, _ => by
    rw [iterate]
    by_cases hc : clk k = true ∧ b > ERRDELTA
    · rw [if_pos hc]
      obtain ⟨⟨p1, b1⟩, hq⟩ := pass_wkEnds (graph_proper he) (closedInt he g) (start := (st : Int)) (List.mem_map.mpr ⟨st, hst, rfl⟩) hs hm (fuel := fuel) (by simpa using hf)
      rw [hq]
      dsimp only
      obtain ⟨k1, k3, k4, k5⟩ := pass_wk (graph_proper he) hs hm hq
      have hs0 : Wk (vEnvOf acts h) gl { p with iteration := p.iteration + 1 } := hs.of_eq rfl rfl
      obtain ⟨f1, f2, f3⟩ := F_passLoop (B := B) he hK g hB' hs0 hv (by intro t ht; simp at ht; exact ⟨st, hst, ht⟩) hq
      have hphi := h1 hc.2
      have hpos : 0 ≤ F succs B S p + S.length * ((2 * S.length + 1 : Nat) : ℤ) ^ B := by
        have a1 := pot_ge (succs := succs) B S (wv p.v)
        have a2 := cnt_nonneg S p
        unfold F
        linarith
      have hn : 0 < n := by
        push_cast at hphi hpos
        have : (0 : ℤ) < n := by linarith
        exact_mod_cast this
      exact iterate_conv he hK g hB' hst hf k1 f1 k3 (fun hb => by
        have : F succs B S p1 + 1 ≤ F succs B S p := f3 (le_of_lt err_pos) hb
        push_cast at hphi ⊢
        linarith) hn
    · rw [if_neg hc]
      refine ⟨p, b, rfl, hv, fun h => ?_⟩
      by_contra hb
      exact hc ⟨h k, not_le.mp hb⟩

end VIConv
end Sbpl
