import Verif.Proofs.EvalPolicy
import Mathlib.Algebra.Order.Archimedean.Basic
/-!
# C103–C106: EvaluatePolicy

The expected cost of following the policy is described by `costIn m goal k s`, the expected cost of the first `k` steps from
`s` (a computation of its own in `Spec/EvalPolicy`), and likewise the expected number of steps and the probability of reaching the goal.
-/

namespace Sbpl.EvProps
open MDP MDPSpec EvSpec EvPr

section
variable {m : List State} {start goal : Int} {c0 : Bool} {fuel : Nat}

/-- the outcomes of a call -/
theorem evaluate_cases (hp : Policy m start) : evaluate m start goal c0 fuel = .error .noTermination ∨ ∃ r e i s, evaluate m start goal c0 fuel = .ok r ∧
    m[i]? = some s ∧ s.id = start ∧ r = ⟨e.vals i, e.full, e.pcGoal, e.merges, e.cyc⟩ ∧
    ((e.full = false ∧ ¬ Complete m goal) ∨ (LInv m goal false e ∧ e.delta ≤ 1 / 10)) := by
  unfold evaluate
  rcases evLoop_ok hp (goal := goal) (fuel := fuel) (linv_init hp) with h | ⟨e, h1, h2⟩
  · left; rw [h]
  · right
    rw [h1]
    obtain ⟨k, s, h3, h4, h5⟩ := startInd_some (i := 0) (r := none) hp.start
    rw [h3]
    exact ⟨_, e, 0 + k, s, rfl, by simpa using h4, h5, rfl, h2⟩

/-- **C103.**  For a policy with costs that are not negative, EvaluatePolicy raises no exception (in particular not "val is
decreasing"): it returns, or its loop goes on. -/
theorem evaluate_no_exception {x : EvErr} (hp : Policy m start) (h : evaluate m start goal c0 fuel = .error x) : x = .noTermination := by
  rcases evaluate_cases hp (goal := goal) (c0 := c0) (fuel := fuel) with q | ⟨r, _, _, _, q, _⟩
  · rw [q] at h; cases h; rfl
  · rw [q] at h; cases h

/-- **C103.**  The policy is reported as full exactly if every state except the goal has an action. -/
theorem evaluate_full_iff {r : EvRes} (hp : Policy m start) (h : evaluate m start goal c0 fuel = .ok r) : r.full = true ↔ Complete m goal := by
  rcases evaluate_cases hp (goal := goal) (c0 := c0) (fuel := fuel) with q | ⟨r', e, i, s, q, _, _, q4, q5⟩
  · rw [q] at h; cases h
  · rw [q] at h; cases h
    subst q4
    rcases q5 with ⟨a, b⟩ | ⟨a, b⟩
    · exact ⟨fun hh => by (have hh : e.full = true := hh); rw [a] at hh; exact absurd hh Bool.false_ne_true, fun hh => absurd hh b⟩
    · exact ⟨fun _ => a.compl rfl, fun _ => a.full⟩

/-- **C104.**  For a full policy the reported value is a lower bound of its expected cost (it is at most the expected cost
of the first `K` steps for some `K`), and the expected cost of any number of steps exceeds it by at most a tenth of the
expected number of steps. -/
theorem evaluate_value {r : EvRes} (hp : Policy m start) (hc : Complete m goal) (h : evaluate m start goal c0 fuel = .ok r) :
    (∃ K, r.value ≤ costIn m goal K start) ∧ ∀ k, costIn m goal k start ≤ r.value + stepsIn m goal k start / 10 := by
  rcases evaluate_cases hp (goal := goal) (c0 := c0) (fuel := fuel) with q | ⟨r', e, i, s, q, q2, q3, q4, q5⟩
  · rw [q] at h; cases h
  · rw [q] at h; cases h
    subst q4
    rcases q5 with ⟨a, b⟩ | ⟨a, b⟩
    · exact absurd hc b
    · refine ⟨?_, fun k => ?_⟩
      · obtain ⟨K, hK⟩ := a.below
        exact ⟨K, by rw [← q3]; exact hK i s q2⟩
      · have h1 := costIn_le hp hc (d := 1 / 10) a.inv (fun j t b' hj hg hb => le_trans (a.res rfl j t b' hj hg hb) (by linarith)) (k := k) q2
        rw [q3] at h1
        have : 1 / 10 * stepsIn m goal k start = stepsIn m goal k start / 10 := by ring
        rw [this] at h1
        exact h1

theorem stepsIn_nonneg (hp : Policy m start) : ∀ {k : Nat} {s : State}, s ∈ m → 0 ≤ stepsIn m goal k s.id
  | 0, s, hs => le_refl _
  | k + 1, s, hs => by
    rw [stepsIn]
    split
    · exact le_refl _
    · rw [outcomes_of hp.chain hs]
      have := sum_nn (os := s.outs) (f := fun o => o.2.2 * stepsIn m goal k o.1) (fun o ho => by
        obtain ⟨t, t1, t2⟩ := out_pos hp.chain hs ho
        rw [← t2]
        exact mul_nonneg (prob_outs hp hs o ho) (stepsIn_nonneg hp (List.mem_of_getElem? t1)))
      linarith

theorem reachIn_nonneg (hp : Policy m start) : ∀ {k : Nat} {s : State}, s ∈ m → 0 ≤ reachIn m goal k s.id
  | 0, s, hs => by rw [reachIn]; split <;> norm_num
  | k + 1, s, hs => by
    rw [reachIn]
    split
    · norm_num
    · rw [outcomes_of hp.chain hs]
      exact sum_nn (fun o ho => by
        obtain ⟨t, t1, t2⟩ := out_pos hp.chain hs ho
        rw [← t2]
        exact mul_nonneg (prob_outs hp hs o ho) (reachIn_nonneg hp (List.mem_of_getElem? t1)))

theorem reachIn_mono (hp : Policy m start) : ∀ {k : Nat} {s : State}, s ∈ m → reachIn m goal k s.id ≤ reachIn m goal (k + 1) s.id
  | 0, s, hs => by
    by_cases hg : s.id = goal
    · rw [reachIn, reachIn, if_pos hg, if_pos hg]
    · have := reachIn_nonneg hp (goal := goal) (k := 1) hs
      rw [reachIn, if_neg hg]; exact this
  | k + 1, s, hs => by
    rw [reachIn, reachIn]
    split
    · exact le_refl _
    · rw [outcomes_of hp.chain hs]
      refine sum_le (fun o ho => mul_le_mul_of_nonneg_left ?_ (prob_outs hp hs o ho))
      obtain ⟨t, t1, t2⟩ := out_pos hp.chain hs ho
      rw [← t2]
      exact reachIn_mono hp (List.mem_of_getElem? t1)

theorem reachIn_le (hp : Policy m start) {s : State} (hs : s ∈ m) {k l : Nat} (h : k ≤ l) : reachIn m goal k s.id ≤ reachIn m goal l s.id := by
  induction l with
  | zero => have : k = 0 := by omega
            subst this; exact le_refl _
  | succ l ih =>
    by_cases q : k = l + 1
    · subst q; exact le_refl _
    · exact le_trans (ih (by omega)) (reachIn_mono hp hs)

theorem costIn_le' (hp : Policy m start) {s : State} (hs : s ∈ m) {k l : Nat} (h : k ≤ l) : costIn m goal k s.id ≤ costIn m goal l s.id := by
  induction l with
  | zero => have : k = 0 := by omega
            subst this; exact le_refl _
  | succ l ih =>
    by_cases q : k = l + 1
    · subst q; exact le_refl _
    · exact le_trans (ih (by omega)) (costIn_mono hp hs)

theorem goal_cost {k : Nat} : costIn m goal k goal = 0 := by cases k <;> simp [costIn]

/-- after `l` steps only the part of the probability that has not reached the goal still costs something -/
theorem costIn_add (hp : Policy m start) (hc : Complete m goal) {C M : ℚ} (hC : ∀ s ∈ m, ∀ o ∈ s.outs, (o.2.1 : ℚ) ≤ C) {k : Nat} (hM : ∀ s ∈ m, costIn m goal k s.id ≤ M) (hM0 : 0 ≤ M) (hC0 : 0 ≤ C) :
    ∀ {l : Nat} {s : State}, s ∈ m → costIn m goal (k + l) s.id ≤ l * C + (1 - reachIn m goal l s.id) * M
  | 0, s, hs => by
    by_cases hg : s.id = goal
    · rw [hg, goal_cost, reachIn, if_pos rfl]; simp
    · rw [reachIn, if_neg hg]; have := hM s hs; simp only [Nat.add_zero, Nat.cast_zero]; linarith
  | l + 1, s, hs => by
    by_cases hg : s.id = goal
    · rw [hg, goal_cost, reachIn, if_pos rfl]
      have : (0 : ℚ) ≤ ((l + 1 : Nat) : ℚ) * C := mul_nonneg (Nat.cast_nonneg _) hC0
      linarith
    · rw [← Nat.add_assoc, costIn, if_neg hg, reachIn, if_neg hg, outcomes_of hp.chain hs]
      obtain ⟨a, as, ha⟩ := List.exists_cons_of_ne_nil (hc s hs hg)
      have ht : (s.outs.map (fun o => o.2.2)).sum = 1 := by rw [outs_cons ha]; exact hp.total s hs a (by rw [ha]; exact List.mem_cons_self)
      have hmem : ∀ o ∈ s.outs, o.2.2 * (o.2.1 + costIn m goal (k + l) o.1) ≤ (l * C + C + M) * o.2.2 - M * (o.2.2 * reachIn m goal l o.1) := by
        intro o ho
        obtain ⟨t, t1, t2⟩ := out_pos hp.chain hs ho
        have t3 := costIn_add hp hc hC hM hM0 hC0 (l := l) (List.mem_of_getElem? t1)
        rw [t2] at t3
        have t4 := hC s hs o ho
        have t5 := mul_le_mul_of_nonneg_left (add_le_add t4 t3) (prob_outs hp hs o ho)
        nlinarith
      have h1 : (s.outs.map (fun o => o.2.2 * (o.2.1 + costIn m goal (k + l) o.1))).sum ≤
          (l * C + C + M) * (s.outs.map (fun o => o.2.2)).sum - M * (s.outs.map (fun o => o.2.2 * reachIn m goal l o.1)).sum := by
        generalize s.outs = os at hmem ⊢
        induction os with
        | nil => simp
        | cons o os ih =>
          have i1 := ih (fun x hx => hmem x (List.mem_cons_of_mem _ hx))
          have i2 := hmem o List.mem_cons_self
          simp only [List.map_cons, List.sum_cons]
          nlinarith
      rw [ht] at h1
      push_cast
      nlinarith

/-- a bound for finitely many rationals -/
theorem exists_bound {α : Type} (f : α → ℚ) : ∀ l : List α, ∃ C : ℚ, 0 ≤ C ∧ ∀ x ∈ l, f x ≤ C
  | [] => ⟨0, le_refl _, by simp⟩
  | x :: l => by
    obtain ⟨C, h0, h⟩ := exists_bound f l
    refine ⟨max C (f x), le_trans h0 (le_max_left _ _), ?_⟩
    intro y hy
    rcases List.mem_cons.mp hy with rfl | hy
    · exact le_max_right _ _
    · exact le_trans (h y hy) (le_max_left _ _)

/-- if every state can reach the goal, there are a number of steps and a positive probability that serve all states -/
theorem uniform (hp : Policy m start) : ∀ {l : List State}, (∀ s ∈ l, s ∈ m) → (∀ s ∈ l, ∃ k, 0 < reachIn m goal k s.id) →
    ∃ n q, 0 < q ∧ q ≤ 1 ∧ ∀ s ∈ l, q ≤ reachIn m goal n s.id
  | [], _, _ => ⟨0, 1, by norm_num, le_refl _, by simp⟩
  | s :: l, h1, h2 => by
    obtain ⟨n, q, a, a', b⟩ := uniform hp (fun s hs => h1 s (List.mem_cons_of_mem _ hs)) (fun s hs => h2 s (List.mem_cons_of_mem _ hs))
    obtain ⟨k, hk⟩ := h2 s List.mem_cons_self
    refine ⟨max n k, min q (reachIn m goal k s.id), lt_min a hk, le_trans (min_le_left _ _) a', ?_⟩
    intro t ht
    rcases List.mem_cons.mp ht with rfl | ht
    · exact le_trans (min_le_right _ _) (reachIn_le hp (h1 t List.mem_cons_self) (le_max_right _ _))
    · exact le_trans (min_le_left _ _) (le_trans (b t ht) (reachIn_le hp (h1 t (List.mem_cons_of_mem _ ht)) (le_max_left _ _)))

/-- if every state can reach the goal, the expected costs are bounded -/
theorem costIn_bounded (hp : Policy m start) (hc : Complete m goal) (hr : ∀ s ∈ m, ∃ k, 0 < reachIn m goal k s.id) :
    ∃ B, ∀ k, ∀ s ∈ m, costIn m goal k s.id ≤ B := by
  obtain ⟨n, q, q0, q1, q2⟩ := uniform hp (fun s hs => hs) hr
  obtain ⟨C, C0, hC⟩ := exists_bound (fun o : Int × Int × ℚ => (o.2.1 : ℚ)) (m.flatMap State.outs)
  have hC' : ∀ s ∈ m, ∀ o ∈ s.outs, (o.2.1 : ℚ) ≤ C := fun s hs o ho => hC o (List.mem_flatMap.mpr ⟨s, hs, ho⟩)
  have hB0 : 0 ≤ (n : ℚ) * C / q := div_nonneg (mul_nonneg (Nat.cast_nonneg _) C0) (le_of_lt q0)
  have hB : ∀ j, ∀ s ∈ m, costIn m goal (j * n) s.id ≤ (n : ℚ) * C / q := by
    intro j
    induction j with
    | zero => intro s _; simp only [Nat.zero_mul, costIn]; exact hB0
    | succ j ih =>
      intro s hs
      have h1 := costIn_add hp hc hC' ih hB0 C0 (l := n) hs
      rw [show (j + 1) * n = j * n + n by ring]
      have h2 : (n : ℚ) * C / q * q = n * C := div_mul_cancel₀ _ (ne_of_gt q0)
      have h3 : (n : ℚ) * C / q * q ≤ (n : ℚ) * C / q * reachIn m goal n s.id := mul_le_mul_of_nonneg_left (q2 s hs) hB0
      nlinarith
  refine ⟨(n : ℚ) * C / q, fun k s hs => ?_⟩
  by_cases hn : n = 0
  · subst hn
    -- every state is the goal
    have : s.id = goal := by
      by_contra hg
      have := q2 s hs
      rw [reachIn, if_neg hg] at this
      linarith
    rw [this, goal_cost]; exact hB0
  · exact le_trans (costIn_le' hp hs (Nat.le_mul_of_pos_right k (Nat.pos_of_ne_zero hn))) (hB k s hs)

/-- sum of the values of the first `n` states -/
def vsum (v : Nat → ℚ) : Nat → ℚ
  | 0 => 0
  | n + 1 => vsum v n + v n

theorem vsum_le {v w : Nat → ℚ} (h : ∀ j, v j ≤ w j) : ∀ n, vsum v n ≤ vsum w n
  | 0 => le_refl _
  | n + 1 => add_le_add (vsum_le h n) (h n)

theorem vsum_add {v w : Nat → ℚ} {d : ℚ} (h : ∀ j, v j ≤ w j) {j : Nat} (hj : w j = v j + d) : ∀ {n : Nat}, j < n → vsum v n + d ≤ vsum w n
  | 0, q => absurd q (Nat.not_lt_zero _)
  | n + 1, q => by
    unfold vsum
    by_cases e : j = n
    · subst e; have := vsum_le h j; linarith
    · have := vsum_add h hj (n := n) (by omega); have := h n; linarith

theorem vsum_bound {v : Nat → ℚ} {B : ℚ} : ∀ {n : Nat}, (∀ j, j < n → v j ≤ B) → vsum v n ≤ n * B
  | 0, _ => by simp [vsum]
  | n + 1, h => by
    unfold vsum
    have h1 := vsum_bound (n := n) (fun j hj => h j (by omega))
    have h2 := h n (by omega)
    push_cast
    linarith

/-- the outer loop ends when the values are bounded -/
theorem evLoop_ends (hp : Policy m start) {B : ℚ} (hB : ∀ k, ∀ s ∈ m, costIn m goal k s.id ≤ B) : ∀ {fuel : Nat} {first : Bool} {e : Ev}, LInv m goal first e →
    m.length * B < vsum e.vals m.length + fuel / 10 → evLoop m start goal (fuel + 1) first e ≠ .error .noTermination
  | fuel, first, e, h, hf => by
    have hsum : vsum e.vals m.length ≤ m.length * B := by
      obtain ⟨K, hK⟩ := h.below
      exact vsum_bound (fun j hj => le_trans (hK j m[j] (by simp [hj])) (hB K _ (List.getElem_mem hj)))
    cases fuel with
    | zero => simp only [Nat.cast_zero] at hf; linarith
    | succ fuel =>
      unfold evLoop
      by_cases hd : e.delta > 1 / 10
      · rw [if_pos hd]
        obtain ⟨b, e1, h1, h2, h3⟩ := turn_ok hp h
        rw [h1]
        cases b with
        | true => exact nofun
        | false =>
          dsimp only
          obtain ⟨g1, g2⟩ := h3 rfl
          by_cases hd1 : e1.delta > 1 / 10
          · refine evLoop_ends hp hB g1 ?_
            rcases g2.grow with q | ⟨j, hj, q⟩
            · rw [q] at hd1; norm_num at hd1
            · have := vsum_add g2.up q hj
              push_cast at hf
              linarith
          · unfold evLoop; rw [if_neg hd1]; exact nofun
      · rw [if_neg hd]; exact nofun

/-- **C105.**  If the goal can be reached from every state of a full policy, EvaluatePolicy returns. -/
theorem evaluate_returns (hp : Policy m start) (hc : Complete m goal) (hr : ∀ s ∈ m, ∃ k, 0 < reachIn m goal k s.id) :
    ∃ N, ∀ fuel, N ≤ fuel → ∃ r, evaluate m start goal c0 fuel = .ok r := by
  obtain ⟨B, hB⟩ := costIn_bounded hp hc hr
  obtain ⟨N, hN⟩ := exists_nat_gt (m.length * B * 10)
  refine ⟨N + 1, fun fuel hf => ?_⟩
  obtain ⟨f, rfl⟩ : ∃ f, fuel = f + 1 := ⟨fuel - 1, by omega⟩
  rcases evaluate_cases hp (goal := goal) (c0 := c0) (fuel := f + 1) with q | ⟨r, _, _, _, q, _⟩
  · exfalso
    have hNf : (N : ℚ) ≤ f := by exact_mod_cast (by omega : N ≤ f)
    have hz : vsum (fun _ => 0) m.length = 0 := by
      generalize m.length = n
      induction n with
      | zero => rfl
      | succ n ih => unfold vsum; rw [ih]; norm_num
    have := evLoop_ends hp hB (fuel := f) (linv_init hp (c := c0)) (by
      show (m.length : ℚ) * B < vsum (fun _ => 0) m.length + f / 10
      rw [hz]; linarith)
    apply this
    unfold evaluate at q
    split at q
    next x hx => cases q; exact hx
    next e he =>
      split at q
      · cases q
      · cases q
  · exact ⟨r, q⟩

/-- **C105 (refuted expectation).**  If every step of a full policy costs at least 1 and there is a state from which the
policy never reaches the goal, EvaluatePolicy does not return. -/
theorem evaluate_hangs (hp : Policy m start) (hc : Complete m goal) (h1 : ∀ s ∈ m, ∀ a ∈ s.actions, ∀ o ∈ a.outs, 1 ≤ o.2.1) (hn : ∃ s ∈ m, ∀ k, reachIn m goal k s.id = 0) :
    evaluate m start goal c0 fuel = .error .noTermination := by
  rcases evaluate_cases hp (goal := goal) (c0 := c0) (fuel := fuel) with q | ⟨r', e, i, s, q, q2, q3, q4, q5⟩
  · exact q
  · exfalso
    rcases q5 with ⟨a, b⟩ | ⟨a, b⟩
    · exact b hc
    · -- a state with the least value among those that never reach the goal
      have hmin : ∀ l : List Nat, (∃ j ∈ l, ∃ t, m[j]? = some t ∧ ∀ k, reachIn m goal k t.id = 0) →
          ∃ j ∈ l, (∃ t, m[j]? = some t ∧ ∀ k, reachIn m goal k t.id = 0) ∧ ∀ j' ∈ l, (∃ t, m[j']? = some t ∧ ∀ k, reachIn m goal k t.id = 0) → e.vals j ≤ e.vals j' := by
        intro l
        induction l with
        | nil => rintro ⟨j, hj, _⟩; cases hj
        | cons x l ih =>
          rintro ⟨j, hj, hP⟩
          by_cases hl : ∃ j ∈ l, ∃ t, m[j]? = some t ∧ ∀ k, reachIn m goal k t.id = 0
          · obtain ⟨y, y1, y2, y3⟩ := ih hl
            by_cases hx : (∃ t, m[x]? = some t ∧ ∀ k, reachIn m goal k t.id = 0) ∧ e.vals x ≤ e.vals y
            · refine ⟨x, List.mem_cons_self, hx.1, ?_⟩
              intro z hz hPz
              rcases List.mem_cons.mp hz with rfl | hz
              · exact le_refl _
              · exact le_trans hx.2 (y3 z hz hPz)
            · refine ⟨y, List.mem_cons_of_mem _ y1, y2, ?_⟩
              intro z hz hPz
              rcases List.mem_cons.mp hz with rfl | hz
              · by_contra hlt
                exact hx ⟨hPz, le_of_lt (not_le.mp hlt)⟩
              · exact y3 z hz hPz
          · rcases List.mem_cons.mp hj with rfl | hj
            · refine ⟨j, List.mem_cons_self, hP, ?_⟩
              intro z hz hPz
              rcases List.mem_cons.mp hz with rfl | hz
              · exact le_refl _
              · exact absurd ⟨z, hz, hPz⟩ hl
            · exact absurd ⟨j, hj, hP⟩ hl
      obtain ⟨t, t1, t2⟩ := hn
      obtain ⟨j0, hj0⟩ := List.getElem?_of_mem t1
      obtain ⟨j, _, ⟨u, u1, u2⟩, j3⟩ := hmin (List.range m.length) ⟨j0, List.mem_range.mpr (List.getElem?_eq_some_iff.mp hj0).1, t, hj0, t2⟩
      have hu := List.mem_of_getElem? u1
      have hg : u.id ≠ goal := fun hg => by
        have := u2 0
        rw [reachIn, if_pos hg] at this
        norm_num at this
      obtain ⟨b', bs, hb⟩ := List.exists_cons_of_ne_nil (hc u hu hg)
      have hres := a.res rfl j u b' u1 hg (by rw [hb]; exact List.mem_cons_self)
      have hbm : b' ∈ u.actions := by rw [hb]; exact List.mem_cons_self
      have hge : (1 + e.vals j) * (b'.outs.map (fun o => o.2.2)).sum ≤ Qs m e.vals b'.outs := by
        have hmem : ∀ o ∈ b'.outs, (1 + e.vals j) * o.2.2 ≤ o.2.2 * (e.vals (pos m o.1) + o.2.1) := by
          intro o ho
          have hp0 := hp.prob u hu b' hbm o ho
          have hc1 : (1 : ℚ) ≤ o.2.1 := by exact_mod_cast h1 u hu b' hbm o ho
          have ho' : o ∈ u.outs := by rw [outs_cons hb]; exact ho
          obtain ⟨w, w1, w2⟩ := out_pos hp.chain hu ho'
          rcases eq_or_lt_of_le hp0 with hz | hpos
          · rw [← hz]; simp
          · have hw : ∀ k, reachIn m goal k w.id = 0 := by
              intro k
              have h0 := u2 (k + 1)
              rw [reachIn, if_neg hg, outcomes_of hp.chain hu] at h0
              have hnn : ∀ x ∈ u.outs, 0 ≤ x.2.2 * reachIn m goal k x.1 := by
                intro x hx
                obtain ⟨y, y1, y2⟩ := out_pos hp.chain hu hx
                rw [← y2]
                exact mul_nonneg (prob_outs hp hu x hx) (reachIn_nonneg hp (List.mem_of_getElem? y1))
              have hle : ∀ (os : List (Int × Int × ℚ)), (∀ x ∈ os, 0 ≤ x.2.2 * reachIn m goal k x.1) → o ∈ os →
                  o.2.2 * reachIn m goal k o.1 ≤ (os.map (fun x => x.2.2 * reachIn m goal k x.1)).sum := by
                intro os
                induction os with
                | nil => intro _ h; cases h
                | cons z os ih =>
                  intro hz h
                  simp only [List.map_cons, List.sum_cons]
                  rcases List.mem_cons.mp h with rfl | h
                  · have := sum_nn (os := os) (fun x hx => hz x (List.mem_cons_of_mem _ hx)); linarith
                  · have := ih (fun x hx => hz x (List.mem_cons_of_mem _ hx)) h
                    have := hz z List.mem_cons_self
                    linarith
              have := hle u.outs hnn ho'
              rw [h0] at this
              rw [w2]
              have h9 := hnn o ho'
              rcases mul_eq_zero.mp (le_antisymm this h9) with h | h
              · linarith
              · exact h
            have := j3 (pos m o.1) (List.mem_range.mpr (List.getElem?_eq_some_iff.mp w1).1) ⟨w, w1, hw⟩
            nlinarith
        unfold Qs
        generalize b'.outs = os at hmem ⊢
        induction os with
        | nil => simp
        | cons o os ih =>
          have i1 := ih (fun x hx => hmem x (List.mem_cons_of_mem _ hx))
          have i2 := hmem o List.mem_cons_self
          simp only [List.map_cons, List.sum_cons]
          linarith
      rw [hp.total u hu b' hbm] at hge
      linarith

end
end Sbpl.EvProps
