import Verif.Spec.EvalPolicy
import Verif.Props.MDP
import Mathlib.Tactic.Linarith
import Mathlib.Tactic.Ring
/-! # EvaluatePolicy: invariants -/

namespace Sbpl.EvPr
open MDP MDPSpec EvSpec MDPProps

section
variable {m : List State} {start goal : Int}

/-- position of an ID -/
def pos (m : List State) (id : Int) : Nat := (find m id).getD 0

/-- the backed-up value -/
def Qs (m : List State) (v : Nat → ℚ) (os : List (Int × Int × ℚ)) : ℚ := (os.map (fun o => o.2.2 * (v (pos m o.1) + o.2.1))).sum

theorem backupQ_ok {v : Nat → ℚ} : ∀ {os : List (Int × Int × ℚ)} {q : ℚ}, (∀ o ∈ os, ∃ t ∈ m, t.id = o.1) → backupQ m v os q = .ok (q + Qs m v os)
  | [], q, _ => by simp [backupQ, Qs]
  | (t, c, p) :: os, q, h => by
    obtain ⟨i, hi⟩ := find_of_mem (h (t, c, p) (by simp))
    have hi : find m t = some i := hi
    unfold backupQ
    rw [hi]
    dsimp only
    rw [backupQ_ok (fun o ho => h o (List.mem_cons_of_mem _ ho))]
    congr 1
    simp only [Qs, List.map_cons, List.sum_cons, pos, hi, Option.getD_some]
    ring

theorem Qs_mono {v w : Nat → ℚ} : ∀ {os : List (Int × Int × ℚ)}, (∀ o ∈ os, 0 ≤ o.2.2) → (∀ j, v j ≤ w j) → Qs m v os ≤ Qs m w os
  | [], _, _ => by simp [Qs]
  | o :: os, h, hv => by
    have h1 : Qs m v os ≤ Qs m w os := Qs_mono (fun x hx => h x (List.mem_cons_of_mem _ hx)) hv
    have h2 : 0 ≤ o.2.2 := h o List.mem_cons_self
    have h3 := mul_le_mul_of_nonneg_left (add_le_add_left (hv (pos m o.1)) (o.2.1 : ℚ)) h2
    simp only [Qs, List.map_cons, List.sum_cons] at h1 ⊢
    linarith

theorem Qs_shift {v w : Nat → ℚ} {d : ℚ} : ∀ {os : List (Int × Int × ℚ)}, (∀ o ∈ os, 0 ≤ o.2.2) → (∀ j, v j ≤ w j + d) →
    Qs m v os ≤ Qs m w os + d * (os.map (fun o => o.2.2)).sum
  | [], _, _ => by simp [Qs]
  | o :: os, h, hv => by
    have h1 := Qs_shift (os := os) (fun x hx => h x (List.mem_cons_of_mem _ hx)) hv
    have h2 : 0 ≤ o.2.2 := h o List.mem_cons_self
    have h3 := mul_le_mul_of_nonneg_left (hv (pos m o.1)) h2
    simp only [Qs, List.map_cons, List.sum_cons] at h1 ⊢
    nlinarith

theorem Qs_nonneg {v : Nat → ℚ} : ∀ {os : List (Int × Int × ℚ)}, (∀ o ∈ os, 0 ≤ o.2.2) → (∀ o ∈ os, 0 ≤ o.2.1) → (∀ j, 0 ≤ v j) → 0 ≤ Qs m v os
  | [], _, _, _ => by simp [Qs]
  | o :: os, h, hc, hv => by
    have h1 := Qs_nonneg (os := os) (fun x hx => h x (List.mem_cons_of_mem _ hx)) (fun x hx => hc x (List.mem_cons_of_mem _ hx)) hv
    have h2 : 0 ≤ o.2.2 := h o List.mem_cons_self
    have h3 : (0 : ℚ) ≤ o.2.1 := by exact_mod_cast hc o List.mem_cons_self
    have h4 := mul_nonneg h2 (add_nonneg (hv (pos m o.1)) h3)
    simp only [Qs, List.map_cons, List.sum_cons] at h1 ⊢
    linarith

/-! ## the predecessor loop -/

theorem pathExists_len (hm : Chain m) {i j : Nat} (hi : i < m.length) : ∃ b, pathExists m i j (m.length + 1) = some (.ok b) ∧ (b = true ↔ Reach m i j) := by
  have hI : PInv m i j (fun _ => false) [i] :=
    ⟨by intro k hk; simp at hk; subst hk; exact ⟨hi, Reach.refl⟩, by simp, by
      intro k hk hn
      simp at hk hn
      exact absurd hk hn⟩
  have hun : unp m.length (fun _ => false) ≤ m.length := by
    unfold unp
    have := List.length_filter_le (fun i => ((fun _ : Nat => false) i == false)) (List.range m.length)
    simpa using this
  exact loop_spec hm (m.length + 1) (fun _ => false) [i] hI (by simp; omega)

/-- probability mass of the outcomes leading to `id` -/
def into (id : Int) (os : List (Int × Int × ℚ)) : ℚ := ((os.filter (fun o => o.1 = id)).map (fun o => o.2.2)).sum

theorem outLoop_ok (hm : Chain m) {pcv : Nat → ℚ} {first : Bool} {i : Nat} {id : Int} {j : Nat} (hi : i < m.length) :
    ∀ {os : List (Int × Int × ℚ)} {a : PAcc}, ∃ b, outLoop m pcv first i id j os a = .ok b ∧ b.pc = a.pc + pcv j * into id os ∧
      b.n = a.n + (os.filter (fun o => o.1 = id)).length ∧
      (b.cyc = true ↔ a.cyc = true ∨ (first = true ∧ (∃ o ∈ os, o.1 = id) ∧ Reach m i j))
  | [], a => ⟨a, rfl, by simp [into], by simp, by simp⟩
  | (t, c, p) :: os, a => by
    unfold outLoop
    by_cases ht : t = id
    · rw [if_pos ht]
      dsimp only
      have e1 : into id ((t, c, p) :: os) = p + into id os := by simp [into, ht]
      have e2 : (((t, c, p) :: os).filter (fun o => o.1 = id)).length = (os.filter (fun o => o.1 = id)).length + 1 := by simp [ht]
      by_cases hf : first = true ∧ a.cyc = false
      · rw [if_pos hf]
        obtain ⟨b, hb, hb'⟩ := pathExists_len hm (j := j) hi
        rw [hb]
        dsimp only
        obtain ⟨d, d1, d2, d3, d4⟩ := outLoop_ok hm hi (os := os) (a := { a with pc := a.pc + p * pcv j, n := a.n + 1, cyc := b })
        refine ⟨d, d1, ?_, ?_, ?_⟩
        · rw [d2, e1]; ring
        · rw [d3, e2]; push_cast; ring
        · rw [d4]
          constructor
          · rintro (h | ⟨h1, h2, h3⟩)
            · exact Or.inr ⟨hf.1, ⟨_, List.mem_cons_self, ht⟩, hb'.mp h⟩
            · exact Or.inr ⟨h1, by obtain ⟨o, ho, e⟩ := h2; exact ⟨o, List.mem_cons_of_mem _ ho, e⟩, h3⟩
          · rintro (h | ⟨h1, h2, h3⟩)
            · rw [hf.2] at h; cases h
            · exact Or.inl (hb'.mpr h3)
      · rw [if_neg hf]
        obtain ⟨d, d1, d2, d3, d4⟩ := outLoop_ok hm hi (os := os) (a := { a with pc := a.pc + p * pcv j, n := a.n + 1 })
        refine ⟨d, d1, ?_, ?_, ?_⟩
        · rw [d2, e1]; ring
        · rw [d3, e2]; push_cast; ring
        · rw [d4]
          constructor
          · rintro (h | ⟨h1, h2, h3⟩)
            · exact Or.inl h
            · exact Or.inr ⟨h1, by obtain ⟨o, ho, e⟩ := h2; exact ⟨o, List.mem_cons_of_mem _ ho, e⟩, h3⟩
          · rintro (h | ⟨h1, h2, h3⟩)
            · exact Or.inl h
            · left
              by_contra hc
              exact hf ⟨h1, by simpa using hc⟩
    · rw [if_neg ht]
      obtain ⟨d, d1, d2, d3, d4⟩ := outLoop_ok hm hi (os := os) (a := a) (pcv := pcv) (first := first) (id := id) (j := j)
      refine ⟨d, d1, ?_, ?_, ?_⟩
      · rw [d2]; simp [into, ht]
      · rw [d3]; simp [ht]
      · rw [d4]
        constructor
        · rintro (h | ⟨h1, h2, h3⟩)
          · exact Or.inl h
          · exact Or.inr ⟨h1, by obtain ⟨o, ho, e⟩ := h2; exact ⟨o, List.mem_cons_of_mem _ ho, e⟩, h3⟩
        · rintro (h | ⟨h1, ⟨o, ho, e⟩, h3⟩)
          · exact Or.inl h
          · rcases List.mem_cons.mp ho with rfl | ho
            · exact absurd e ht
            · exact Or.inr ⟨h1, ⟨o, ho, e⟩, h3⟩

/-- sum of the incoming probability mass, for the states of `ss` at positions `j`, `j + 1`, ... -/
def inflow (pcv : Nat → ℚ) (id : Int) : List State → Nat → ℚ
  | [], _ => 0
  | s :: ss, j => pcv j * into id s.outs + inflow pcv id ss (j + 1)

theorem predLoop_ok (hm : Chain m) {pcv : Nat → ℚ} {first : Bool} {i : Nat} {id : Int} (hi : i < m.length) :
    ∀ {ss : List State} {j : Nat} {a : PAcc}, ∃ b, predLoop m pcv first i id ss j a = .ok b ∧ b.pc = a.pc + inflow pcv id ss j ∧
      b.n = a.n + ((ss.map (fun s => (s.outs.filter (fun o => o.1 = id)).length)).sum : Nat) ∧
      (b.cyc = true ↔ a.cyc = true ∨ (first = true ∧ ∃ k s, ss[k]? = some s ∧ (∃ o ∈ s.outs, o.1 = id) ∧ Reach m i (j + k)))
  | [], j, a => ⟨a, rfl, by simp [inflow], by simp, by simp⟩
  | s :: ss, j, a => by
    obtain ⟨b, b1, b2, b3, b4⟩ := outLoop_ok hm hi (os := s.outs) (a := a) (pcv := pcv) (first := first) (id := id) (j := j)
    obtain ⟨d, d1, d2, d3, d4⟩ := predLoop_ok hm hi (ss := ss) (j := j + 1) (a := b) (pcv := pcv) (first := first) (id := id)
    unfold predLoop
    rw [b1]
    refine ⟨d, d1, ?_, ?_, ?_⟩
    · rw [d2, b2]; simp only [inflow]; ring
    · rw [d3, b3]; simp only [List.map_cons, List.sum_cons]; push_cast; ring
    · rw [d4, b4]
      constructor
      · rintro ((h | ⟨h1, h2, h3⟩) | ⟨h1, k, s', h2, h3, h4⟩)
        · exact Or.inl h
        · exact Or.inr ⟨h1, 0, s, rfl, h2, h3⟩
        · exact Or.inr ⟨h1, k + 1, s', by simpa using h2, h3, by rw [show j + (k + 1) = j + 1 + k by omega]; exact h4⟩
      · rintro (h | ⟨h1, k, s', h2, h3, h4⟩)
        · exact Or.inl (Or.inl h)
        · cases k with
          | zero => cases (show some s = some s' from h2); exact Or.inl (Or.inr ⟨h1, h3, h4⟩)
          | succ k => exact Or.inr ⟨h1, k, s', by simpa using h2, h3, by rw [show j + 1 + k = j + (k + 1) by omega]; exact h4⟩

/-- what the second half of the body does -/
theorem pcPart_ok (hm : Chain m) {first : Bool} {i : Nat} {id : Int} {e : Ev} (hi : i < m.length) :
    ∃ e1, pcPart m start goal first i id e = .ok e1 ∧ e1.vals = e.vals ∧ e1.delta = e.delta ∧ e1.full = e.full ∧
      e1.pc = (if id ≠ start then upd e.pc i (inflow e.pc id m 0) else e.pc) ∧
      e1.pcGoal = (if id = goal then e1.pc i else e.pcGoal) ∧
      e1.merges = (if first = true ∧ id ≠ goal then e.merges + (((m.map (fun s => (s.outs.filter (fun o => o.1 = id)).length)).sum - 1 : Nat) : Int) else e.merges) ∧
      (e1.cyc = true ↔ e.cyc = true ∨ (first = true ∧ ∃ k s, m[k]? = some s ∧ (∃ o ∈ s.outs, o.1 = id) ∧ Reach m i k)) := by
  obtain ⟨b, b1, b2, b3, b4⟩ := predLoop_ok hm hi (ss := m) (j := 0) (a := ⟨0, 0, e.cyc⟩) (pcv := e.pc) (first := first) (id := id)
  unfold pcPart
  rw [b1]
  refine ⟨_, rfl, rfl, rfl, rfl, ?_, rfl, ?_, ?_⟩
  · dsimp only; rw [b2]; simp
  · dsimp only
    rw [b3]
    dsimp only
    generalize (m.map (fun s => (s.outs.filter (fun o => o.1 = id)).length)).sum = N
    by_cases hf : first = true ∧ id ≠ goal
    · rw [if_pos hf]
      split
      next h => congr 1; have := h.2.2; omega
      next h =>
        have : ¬ (0 + (N : Int) > 0) := fun q => h ⟨hf.1, hf.2, q⟩
        have : N - 1 = 0 := by omega
        rw [this]; simp
    · rw [if_neg hf, if_neg (fun q => hf ⟨q.1, q.2.1⟩)]
  · dsimp only
    rw [b4]
    simp

/-! ## the value part -/

/-- invariant of the values -/
structure VInv (m : List State) (goal : Int) (v : Nat → ℚ) : Prop where
  nonneg : ∀ i, 0 ≤ v i
  atGoal : ∀ i s, m[i]? = some s → s.id = goal → v i = 0
  sub : ∀ i s a, m[i]? = some s → s.id ≠ goal → a ∈ s.actions → v i ≤ Qs m v a.outs

theorem vinv_zero {start : Int} (hp : Policy m start) : VInv m goal (fun _ => 0) :=
  ⟨fun _ => le_refl _, fun _ _ _ _ => rfl, fun i s a h1 _ h3 =>
    Qs_nonneg (hp.prob s (List.mem_of_getElem? h1) a h3) (hp.cost s (List.mem_of_getElem? h1) a h3) (fun _ => le_refl _)⟩

theorem head_of {s : State} {a b : Action} {as : List Action} (h1 : s.actions.length ≤ 1) (h : s.actions = a :: as) (hb : b ∈ s.actions) : b = a := by
  rw [h] at h1 hb
  have : as = [] := by simpa using h1
  subst this
  simpa using hb

theorem pos_of (hm : Chain m) {i : Nat} {s : State} (h : m[i]? = some s) : pos m s.id = i := by
  unfold pos; rw [find_unique hm.ids h rfl]; rfl

theorem outcomes_of (hm : Chain m) {s : State} (h : s ∈ m) : outcomes m s.id = s.outs := by
  unfold outcomes
  cases hf : m.find? (fun t => t.id == s.id) with
  | none => rw [List.find?_eq_none] at hf; exact absurd (beq_self_eq_true s.id) (hf s h)
  | some t =>
    have h1 : t ∈ m := List.mem_of_find?_eq_some hf
    have h2 : t.id = s.id := by simpa using List.find?_some hf
    have h3 : t = s := by
      obtain ⟨i, hi⟩ := List.getElem?_of_mem h1
      obtain ⟨j, hj⟩ := List.getElem?_of_mem h
      have := find_unique hm.ids hi h2
      rw [find_unique hm.ids hj rfl] at this
      cases this
      rw [hi] at hj; exact Option.some.inj hj
    subst h3; rfl

theorem outs_cons {s : State} {a : Action} {as : List Action} (h : s.actions = a :: as) : s.outs = a.outs := by
  unfold State.outs; rw [h]; rfl

/-- a backup keeps the invariant -/
theorem vinv_upd {start : Int} (hp : Policy m start) {v : Nat → ℚ} (h : VInv m goal v) {i : Nat} {s : State} {a : Action} {as : List Action} (hi : m[i]? = some s)
    (hg : s.id ≠ goal) (ha : s.actions = a :: as) : v i ≤ Qs m v a.outs ∧ VInv m goal (upd v i (Qs m v a.outs)) ∧ ∀ j, v j ≤ upd v i (Qs m v a.outs) j := by
  have h1 : v i ≤ Qs m v a.outs := h.sub i s a hi hg (by rw [ha]; exact List.mem_cons_self)
  have h2 : ∀ j, v j ≤ upd v i (Qs m v a.outs) j := by
    intro j
    by_cases e : j = i
    · subst e; rw [upd_same]; exact h1
    · rw [upd_other _ _ e]
  refine ⟨h1, ⟨fun j => le_trans (h.nonneg j) (h2 j), ?_, ?_⟩, h2⟩
  · intro j t hj ht
    by_cases e : j = i
    · subst e; rw [hi] at hj; cases hj; exact absurd ht hg
    · rw [upd_other _ _ e]; exact h.atGoal j t hj ht
  · intro j t b hj ht hb
    have h3 : Qs m v b.outs ≤ Qs m (upd v i (Qs m v a.outs)) b.outs := Qs_mono (hp.prob t (List.mem_of_getElem? hj) b hb) h2
    by_cases e : j = i
    · subst e
      rw [hi] at hj; cases hj
      rw [upd_same]
      have := head_of (hp.chain.single s (List.mem_of_getElem? hi)) ha hb
      subst this
      exact h3
    · rw [upd_other _ _ e]
      exact le_trans (h.sub j t b hj ht hb) h3

theorem sum_le {os : List (Int × Int × ℚ)} {f g : Int × Int × ℚ → ℚ} (h : ∀ o ∈ os, f o ≤ g o) : (os.map f).sum ≤ (os.map g).sum := by
  induction os with
  | nil => simp
  | cons o os ih =>
    simp only [List.map_cons, List.sum_cons]
    exact add_le_add (h o List.mem_cons_self) (ih (fun x hx => h x (List.mem_cons_of_mem _ hx)))

theorem sum_nn {os : List (Int × Int × ℚ)} {f : Int × Int × ℚ → ℚ} (h : ∀ o ∈ os, 0 ≤ f o) : 0 ≤ (os.map f).sum := by
  have := sum_le (f := fun _ => (0 : ℚ)) h
  simpa using this

/-- an outcome of a state of the chain, with its position -/
theorem out_pos (hm : Chain m) {s : State} (hs : s ∈ m) {o : Int × Int × ℚ} (ho : o ∈ s.outs) : ∃ t, m[pos m o.1]? = some t ∧ t.id = o.1 := by
  have : ∃ t ∈ m, t.id = o.1 := by
    unfold State.outs at ho
    cases ha : s.actions with
    | nil => rw [ha] at ho; cases ho
    | cons a as => rw [ha] at ho; exact hm.succs s hs a (by rw [ha]; exact List.mem_cons_self) o ho
  obtain ⟨j, hj⟩ := find_of_mem this
  obtain ⟨t, h1, h2⟩ := find_some hj
  refine ⟨t, ?_, h2⟩
  unfold pos; rw [hj]; exact h1

theorem prob_outs {start : Int} (hp : Policy m start) {s : State} (hs : s ∈ m) : ∀ o ∈ s.outs, 0 ≤ o.2.2 := by
  intro o ho
  unfold State.outs at ho
  cases ha : s.actions with
  | nil => rw [ha] at ho; cases ho
  | cons a as => rw [ha] at ho; exact hp.prob s hs a (by rw [ha]; exact List.mem_cons_self) o ho

theorem cost_outs {start : Int} (hp : Policy m start) {s : State} (hs : s ∈ m) : ∀ o ∈ s.outs, 0 ≤ o.2.1 := by
  intro o ho
  unfold State.outs at ho
  cases ha : s.actions with
  | nil => rw [ha] at ho; cases ho
  | cons a as => rw [ha] at ho; exact hp.cost s hs a (by rw [ha]; exact List.mem_cons_self) o ho

/-- the values of more steps are larger -/
theorem costIn_mono {start : Int} (hp : Policy m start) : ∀ {k : Nat} {s : State}, s ∈ m → costIn m goal k s.id ≤ costIn m goal (k + 1) s.id
  | 0, s, hs => by
    simp only [costIn]
    split
    · exact le_refl _
    · rw [outcomes_of hp.chain hs]
      apply sum_nn
      intro o ho
      have : (0 : ℚ) ≤ o.2.1 := by exact_mod_cast cost_outs hp hs o ho
      exact mul_nonneg (prob_outs hp hs o ho) (by linarith)
  | k + 1, s, hs => by
    rw [costIn, costIn]
    split
    · exact le_refl _
    · rw [outcomes_of hp.chain hs]
      refine sum_le (fun o ho => mul_le_mul_of_nonneg_left ?_ (prob_outs hp hs o ho))
      obtain ⟨t, h1, h2⟩ := out_pos hp.chain hs ho
      rw [← h2]
      have := costIn_mono hp (k := k) (List.mem_of_getElem? h1)
      linarith

theorem costIn_nonneg {start : Int} (hp : Policy m start) : ∀ {k : Nat} {s : State}, s ∈ m → 0 ≤ costIn m goal k s.id
  | 0, s, hs => le_refl _
  | k + 1, s, hs => le_trans (costIn_nonneg hp hs) (costIn_mono hp hs)

/-- the values are at most those of `K` steps -/
def Below (m : List State) (goal : Int) (K : Nat) (v : Nat → ℚ) : Prop := ∀ j s, m[j]? = some s → v j ≤ costIn m goal K s.id

theorem below_mono {start : Int} (hp : Policy m start) {K : Nat} {v : Nat → ℚ} (h : Below m goal K v) : Below m goal (K + 1) v :=
  fun j s hj => le_trans (h j s hj) (costIn_mono hp (List.mem_of_getElem? hj))

theorem below_Q {start : Int} (hp : Policy m start) {K : Nat} {v : Nat → ℚ} (h : Below m goal K v) {s : State} (hs : s ∈ m) (hg : s.id ≠ goal) :
    Qs m v s.outs ≤ costIn m goal (K + 1) s.id := by
  rw [costIn, if_neg hg, outcomes_of hp.chain hs]
  refine sum_le (fun o ho => mul_le_mul_of_nonneg_left ?_ (prob_outs hp hs o ho))
  obtain ⟨t, h1, h2⟩ := out_pos hp.chain hs ho
  have := h _ t h1
  rw [h2] at this
  linarith

/-- progress of a pass over the states: `v0` at its beginning, `v` and `d` (delta) before position `i` -/
structure SInv (m : List State) (goal : Int) (v0 v : Nat → ℚ) (d : ℚ) (i : Nat) : Prop where
  inv : VInv m goal v
  up : ∀ j, v0 j ≤ v j
  near : ∀ j, v j ≤ v0 j + d
  dpos : 0 ≤ d
  rest : ∀ j, i ≤ j → v j = v0 j
  done : ∀ j s a, j < i → m[j]? = some s → s.id ≠ goal → a ∈ s.actions → Qs m v0 a.outs ≤ v j
  below : ∀ K, Below m goal K v0 → Below m goal (K + i) v
  grow : d = 0 ∨ ∃ j, j < m.length ∧ v j = v0 j + d

theorem sinv_init {v : Nat → ℚ} (h : VInv m goal v) : SInv m goal v v 0 0 :=
  ⟨h, fun _ => le_refl _, fun _ => by simp, le_refl _, fun _ _ => rfl, fun _ _ _ h => absurd h (Nat.not_lt_zero _), fun _ h => h, Or.inl rfl⟩

theorem sinv_goal {start : Int} (hp : Policy m start) {v0 v : Nat → ℚ} {d : ℚ} {i : Nat} {s : State} (h : SInv m goal v0 v d i) (hi : m[i]? = some s) (hg : s.id = goal) :
    SInv m goal v0 (upd v i 0) d (i + 1) := by
  have h0 : v i = 0 := h.inv.atGoal i s hi hg
  have e : upd v i 0 = v := by
    funext j
    by_cases q : j = i
    · subst q; rw [upd_same, h0]
    · rw [upd_other _ _ q]
  rw [e]
  refine ⟨h.inv, h.up, h.near, h.dpos, fun j hj => h.rest j (by omega), ?_, fun K hK => below_mono hp (h.below K hK), h.grow⟩
  intro j t a hj ht hgt ha
  by_cases q : j = i
  · subst q; rw [hi] at ht; cases ht; exact absurd hg hgt
  · exact h.done j t a (by omega) ht hgt ha

theorem sinv_step {start : Int} (hp : Policy m start) {v0 v : Nat → ℚ} {d : ℚ} {i : Nat} {s : State} {a : Action} {as : List Action} (h : SInv m goal v0 v d i) (hi : m[i]? = some s)
    (hg : s.id ≠ goal) (ha : s.actions = a :: as) :
    v i ≤ Qs m v a.outs ∧ SInv m goal v0 (upd v i (Qs m v a.outs)) (if d < Qs m v a.outs - v i then Qs m v a.outs - v i else d) (i + 1) := by
  obtain ⟨h1, h2, h3⟩ := vinv_upd hp h.inv hi hg ha
  have hs : s ∈ m := List.mem_of_getElem? hi
  have hil : i < m.length := (List.getElem?_eq_some_iff.mp hi).1
  have hr : v i = v0 i := h.rest i (le_refl _)
  have hd : d ≤ (if d < Qs m v a.outs - v i then Qs m v a.outs - v i else d) := by split <;> linarith
  have hd2 : Qs m v a.outs - v i ≤ (if d < Qs m v a.outs - v i then Qs m v a.outs - v i else d) := by split <;> linarith
  refine ⟨h1, h2, fun j => le_trans (h.up j) (h3 j), ?_, le_trans h.dpos hd, ?_, ?_, ?_, ?_⟩
  · intro j
    by_cases q : j = i
    · subst q; rw [upd_same]; linarith
    · rw [upd_other _ _ q]; have := h.near j; linarith
  · intro j hj; rw [upd_other _ _ (by omega)]; exact h.rest j (by omega)
  · intro j t b hj ht hgt hb
    by_cases q : j = i
    · subst q
      rw [hi] at ht; cases ht
      have := head_of (hp.chain.single s hs) ha hb
      subst this
      rw [upd_same]
      exact Qs_mono (hp.prob s hs b hb) h.up
    · exact le_trans (h.done j t b (by omega) ht hgt hb) (h3 j)
  · intro K hK j t ht
    have hb := h.below K hK
    by_cases q : j = i
    · subst q
      rw [hi] at ht; cases ht
      rw [upd_same, ← outs_cons ha]
      exact below_Q hp hb hs hg
    · rw [upd_other _ _ q]; exact below_mono hp hb j t ht
  · split
    · right; exact ⟨i, hil, by rw [upd_same]; linarith⟩
    · rcases h.grow with g | ⟨j, hj, g⟩
      · exact Or.inl g
      · by_cases q : j = i
        · subst q
          left
          have := h.rest j (le_refl _)
          linarith
        · exact Or.inr ⟨j, hj, by rw [upd_other _ _ q]; exact g⟩

/-- what one pass does to the values; the flag tells whether a state without an action was met -/
theorem sweep_ok {start : Int} (hp : Policy m start) {first : Bool} {v0 : Nat → ℚ} : ∀ {ss : List State} {i : Nat} {e : Ev}, m.drop i = ss → i ≤ m.length →
    SInv m goal v0 e.vals e.delta i → ∃ b e1, sweep m start goal first ss i e = .ok (b, e1) ∧
      (b = true → e1.full = false ∧ ¬ Complete m goal) ∧
      (b = false → e1.full = e.full ∧ SInv m goal v0 e1.vals e1.delta m.length ∧ ∀ s ∈ ss, s.id ≠ goal → s.actions ≠ [])
  | [], i, e, hss, hle, h => by
    refine ⟨false, e, rfl, nofun, fun _ => ⟨rfl, ?_, by simp⟩⟩
    have hge : m.length ≤ i := by simpa using hss
    rw [show m.length = i by omega]
    exact h
  | s :: ss, i, e, hss, hle, h => by
    have hi : m[i]? = some s := by
      have := congrArg (fun l => l[0]?) hss
      simpa using this
    have hil : i < m.length := (List.getElem?_eq_some_iff.mp hi).1
    have hss' : m.drop (i + 1) = ss := by
      have := congrArg List.tail hss
      simpa using this
    unfold sweep stateStep
    by_cases hg : s.id = goal
    · rw [if_pos hg]
      obtain ⟨e1, q1, q2, q3, q4, _⟩ := pcPart_ok (start := start) (goal := goal) hp.chain (first := first) (id := s.id) (e := { e with vals := upd e.vals i 0 }) hil
      rw [q1]
      dsimp only
      have h1 : SInv m goal v0 e1.vals e1.delta (i + 1) := by
        rw [q2, q3]; exact sinv_goal hp h hi hg
      obtain ⟨b, e2, r1, r2, r3⟩ := sweep_ok hp hss' hil h1
      refine ⟨b, e2, r1, r2, fun hb => ?_⟩
      obtain ⟨t1, t2, t3⟩ := r3 hb
      refine ⟨by rw [t1, q4], t2, ?_⟩
      intro x hx hgx
      rcases List.mem_cons.mp hx with rfl | hx
      · exact absurd hg hgx
      · exact t3 x hx hgx
    · rw [if_neg hg]
      cases ha : s.actions with
      | nil =>
        refine ⟨true, _, rfl, fun _ => ⟨rfl, fun hc => hc s (List.mem_of_getElem? hi) hg ha⟩, nofun⟩
      | cons a as =>
        obtain ⟨h1, h2⟩ := sinv_step hp h hi hg ha
        dsimp only
        rw [backupQ_ok (hp.chain.succs s (List.mem_of_getElem? hi) a (by rw [ha]; exact List.mem_cons_self)), zero_add]
        dsimp only
        rw [if_neg (not_lt.mpr h1)]
        obtain ⟨e1, q1, q2, q3, q4, _⟩ := pcPart_ok (start := start) (goal := goal) hp.chain (first := first) (id := s.id)
          (e := { e with delta := if e.delta < Qs m e.vals a.outs - e.vals i then Qs m e.vals a.outs - e.vals i else e.delta, vals := upd e.vals i (Qs m e.vals a.outs) }) hil
        rw [q1]
        dsimp only
        have h3 : SInv m goal v0 e1.vals e1.delta (i + 1) := by rw [q2, q3]; exact h2
        obtain ⟨b, e2, r1, r2, r3⟩ := sweep_ok hp hss' hil h3
        refine ⟨b, e2, r1, r2, fun hb => ?_⟩
        obtain ⟨t1, t2, t3⟩ := r3 hb
        refine ⟨by rw [t1, q4], t2, ?_⟩
        intro x hx hgx
        rcases List.mem_cons.mp hx with rfl | hx
        · rw [ha]; exact nofun
        · exact t3 x hx hgx

/-- at the head of the outer loop: the values are a lower bound reached by `K` steps, and the last pass had changed nothing by more than delta -/
structure LInv (m : List State) (goal : Int) (first : Bool) (e : Ev) : Prop where
  inv : VInv m goal e.vals
  below : ∃ K, Below m goal K e.vals
  full : e.full = true
  big : first = true → 1 / 10 < e.delta
  compl : first = false → Complete m goal
  res : first = false → ∀ j s a, m[j]? = some s → s.id ≠ goal → a ∈ s.actions → Qs m e.vals a.outs ≤ e.vals j + e.delta

theorem sum_prob {start : Int} (hp : Policy m start) {s : State} {a : Action} (hs : s ∈ m) (ha : a ∈ s.actions) : (a.outs.map (fun o => o.2.2)).sum = 1 := hp.total s hs a ha

/-- one turn of the outer loop -/
theorem turn_ok {start : Int} (hp : Policy m start) {first : Bool} {e : Ev} (h : LInv m goal first e) :
    ∃ b e1, sweep m start goal first m 0 { e with delta := 0 } = .ok (b, e1) ∧ (b = true → e1.full = false ∧ ¬ Complete m goal) ∧
      (b = false → LInv m goal false e1 ∧ SInv m goal e.vals e1.vals e1.delta m.length) := by
  obtain ⟨b, e1, h1, h2, h3⟩ := sweep_ok hp (first := first) (e := { e with delta := 0 }) (v0 := e.vals) (ss := m) (i := 0) rfl (Nat.zero_le _) (sinv_init h.inv)
  refine ⟨b, e1, h1, h2, fun hb => ?_⟩
  obtain ⟨t1, t2, t3⟩ := h3 hb
  refine ⟨⟨t2.inv, ?_, by rw [t1]; exact h.full, nofun, fun _ => t3, ?_⟩, t2⟩
  · obtain ⟨K, hK⟩ := h.below; exact ⟨_, t2.below K hK⟩
  · intro _ j s a hj hg ha
    have hs := List.mem_of_getElem? hj
    have r1 := Qs_shift (m := m) (hp.prob s hs a ha) t2.near
    rw [sum_prob hp hs ha, mul_one] at r1
    have r2 := t2.done j s a (List.getElem?_eq_some_iff.mp hj).1 hj hg ha
    linarith

/-- what is known when the outer loop ends -/
theorem evLoop_ok {start : Int} (hp : Policy m start) : ∀ {fuel : Nat} {first : Bool} {e : Ev}, LInv m goal first e →
    evLoop m start goal fuel first e = .error .noTermination ∨ ∃ e1, evLoop m start goal fuel first e = .ok e1 ∧
      ((e1.full = false ∧ ¬ Complete m goal) ∨ (LInv m goal false e1 ∧ e1.delta ≤ 1 / 10))
  | 0, _, _, _ => Or.inl rfl
  | fuel + 1, first, e, h => by
    unfold evLoop
    by_cases hd : e.delta > 1 / 10
    · rw [if_pos hd]
      obtain ⟨b, e1, h1, h2, h3⟩ := turn_ok hp h
      rw [h1]
      cases b with
      | true => exact Or.inr ⟨e1, rfl, Or.inl (h2 rfl)⟩
      | false => exact evLoop_ok hp (h3 rfl).1
    · rw [if_neg hd]
      cases first with
      | true => exact absurd (h.big rfl) hd
      | false => exact Or.inr ⟨e, rfl, Or.inr ⟨h, not_lt.mp hd⟩⟩

/-- values within delta of a fixed point bound the cost of any number of steps -/
theorem costIn_le {start : Int} (hp : Policy m start) (hc : Complete m goal) {v : Nat → ℚ} {d : ℚ} (hi : VInv m goal v)
    (hr : ∀ j s a, m[j]? = some s → s.id ≠ goal → a ∈ s.actions → Qs m v a.outs ≤ v j + d) :
    ∀ {k : Nat} {j : Nat} {s : State}, m[j]? = some s → costIn m goal k s.id ≤ v j + d * stepsIn m goal k s.id
  | 0, j, s, hj => by simp only [costIn, stepsIn]; have := hi.nonneg j; linarith
  | k + 1, j, s, hj => by
    have hs := List.mem_of_getElem? hj
    rw [costIn, stepsIn]
    by_cases hg : s.id = goal
    · rw [if_pos hg, if_pos hg]; have := hi.nonneg j; linarith
    · rw [if_neg hg, if_neg hg, outcomes_of hp.chain hs]
      obtain ⟨a, as, ha⟩ := List.exists_cons_of_ne_nil (hc s hs hg)
      have h1 := hr j s a hj hg (by rw [ha]; exact List.mem_cons_self)
      rw [← outs_cons ha] at h1
      have h2 : (s.outs.map (fun o => o.2.2 * (o.2.1 + costIn m goal k o.1))).sum ≤ Qs m v s.outs + d * (s.outs.map (fun o => o.2.2 * stepsIn m goal k o.1)).sum := by
        have hmem : ∀ o ∈ s.outs, o.2.2 * (o.2.1 + costIn m goal k o.1) ≤ o.2.2 * (v (pos m o.1) + o.2.1) + d * (o.2.2 * stepsIn m goal k o.1) := by
          intro o ho
          obtain ⟨t, t1, t2⟩ := out_pos hp.chain hs ho
          have t3 := costIn_le hp hc hi hr (k := k) t1
          rw [t2] at t3
          have t4 := mul_le_mul_of_nonneg_left t3 (prob_outs hp hs o ho)
          nlinarith
        generalize s.outs = os at hmem ⊢
        clear h1
        unfold Qs
        induction os with
        | nil => simp
        | cons o os ih =>
          have i1 := ih (fun x hx => hmem x (List.mem_cons_of_mem _ hx))
          have i2 := hmem o List.mem_cons_self
          simp only [List.map_cons, List.sum_cons]
          rw [mul_add]
          linarith
      linarith

theorem linv_init {start : Int} (hp : Policy m start) {c : Bool} : LInv m goal true (ev0 m start c) :=
  ⟨vinv_zero hp, ⟨0, fun _ _ _ => le_refl _⟩, rfl, fun _ => by norm_num [ev0, INFINITECOST], nofun, nofun⟩

theorem startInd_some {start : Int} : ∀ {ss : List State} {i : Nat} {r : Option Nat}, (∃ s ∈ ss, s.id = start) →
    ∃ k s, startInd start ss i r = some (i + k) ∧ ss[k]? = some s ∧ s.id = start
  | [], i, r, h => by obtain ⟨s, hs, _⟩ := h; cases hs
  | s :: ss, i, r, h => by
    unfold startInd
    by_cases hr : ∃ t ∈ ss, t.id = start
    · obtain ⟨k, t, h1, h2, h3⟩ := startInd_some (i := i + 1) (r := if s.id = start then some i else r) hr
      exact ⟨k + 1, t, by rw [h1]; congr 1; omega, by simpa using h2, h3⟩
    · have hs : s.id = start := by
        obtain ⟨t, ht, e⟩ := h
        rcases List.mem_cons.mp ht with rfl | ht
        · exact e
        · exact absurd ⟨t, ht, e⟩ hr
      rw [if_pos hs]
      refine ⟨0, s, ?_, rfl, hs⟩
      have hno : ∀ {l : List State} {j : Nat} {r : Option Nat}, ¬ (∃ t ∈ l, t.id = start) → startInd start l j r = r := by
        intro l
        induction l with
        | nil => intros; rfl
        | cons t l ih =>
          intro j r hn
          unfold startInd
          rw [if_neg (fun e => hn ⟨t, List.mem_cons_self, e⟩)]
          exact ih (fun ⟨x, hx, e⟩ => hn ⟨x, List.mem_cons_of_mem _ hx, e⟩)
      exact hno hr

end
end Sbpl.EvPr
