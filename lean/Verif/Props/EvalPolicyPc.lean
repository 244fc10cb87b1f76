import Verif.Proofs.EvalPolicyPc
import Verif.Props.EvalPolicy
import Mathlib.Algebra.BigOperators.Group.Finset.Basic
import Mathlib.Algebra.BigOperators.Group.Finset.Sigma
import Mathlib.Algebra.BigOperators.Ring.Finset
/-!
# C106–C108: EvaluatePolicy: exact values, merges, cycles, probability of the goal
-/

namespace Sbpl.EvProps
open MDP MDPSpec EvSpec EvPr MDPProps

section
variable {m : List State} {start goal : Int} {c0 : Bool} {fuel : Nat} {r : EvRes}

/-- **C106.**  If every action has a single certain outcome, the reported value is exactly the cost of following the policy
(for every sufficiently large number of steps). -/
theorem evaluate_exact (hp : Policy m start) (hc : Complete m goal) (hd : Deterministic m) (h : evaluate m start goal c0 fuel = .ok r) :
    ∃ K, ∀ k, K ≤ k → costIn m goal k start = r.value := by
  obtain ⟨e, i, s, ⟨z, zd⟩, hl, hdl, hi, hs, hr⟩ := evaluate_inv hp hc (c0 := c0)
    (fun e => (∀ j, ∃ z : Int, e.vals j = z) ∧ ∃ z : Int, e.delta = z)
    (fun e1 h1 _ h3 => by
      have hz := sweep_int hp.chain hd (i := 0) rfl h1 (fun _ => ⟨0, by simp [ev0]⟩)
      refine ⟨hz, ?_⟩
      rcases h3.grow with q | ⟨j, _, q⟩
      · exact ⟨0, by rw [q]; simp⟩
      · obtain ⟨z, hz⟩ := hz j; exact ⟨z, by linarith⟩)
    (fun e e1 _ hP h1 _ h3 => by
      have hz := sweep_int hp.chain hd (i := 0) rfl h1 hP.1
      refine ⟨hz, ?_⟩
      rcases h3.grow with q | ⟨j, _, q⟩
      · exact ⟨0, by rw [q]; simp⟩
      · obtain ⟨z, hz⟩ := hz j
        obtain ⟨z0, hz0⟩ := hP.1 j
        exact ⟨z - z0, by push_cast; linarith⟩) h
  obtain ⟨y, hy⟩ := zd
  have hdn : e.delta ≤ 0 := by
    rw [hy] at hdl ⊢
    have : y ≤ 0 := by
      by_contra hlt
      have h1 : (1 : ℚ) ≤ (y : ℚ) := by exact_mod_cast (by omega : 1 ≤ y)
      linarith
    exact_mod_cast this
  obtain ⟨K, hK⟩ := hl.below
  refine ⟨K, fun k hk => le_antisymm ?_ ?_⟩
  · have := costIn_le hp hc (d := 0) hl.inv (fun j t b hj hg hb => le_trans (hl.res rfl j t b hj hg hb) (by linarith)) (k := k) hi
    rw [hs] at this
    subst hr
    linarith
  · subst hr
    have h1 := hK i s hi
    have h2 := costIn_le' hp (goal := goal) (List.mem_of_getElem? hi) hk
    rw [hs] at h1 h2
    exact le_trans h1 h2

theorem indegree_eq (hm : Chain m) {id : Int} : indegree m id = indeg m id := by
  unfold indegree indeg
  congr 1
  exact List.map_congr_left (fun s hs => by rw [outcomes_of hm hs])

/-- **C107.**  For a full policy the number of merges is the sum, over the states other than the goal with incoming
outcomes, of their number minus one; and cycles are reported exactly if some state can reach itself in one or more steps
(or `*bCycles` was already true). -/
theorem evaluate_merges_cycles (hp : Policy m start) (hc : Complete m goal) (h : evaluate m start goal c0 fuel = .ok r) :
    r.merges = (((m.filter (fun s => s.id ≠ goal)).map (fun s => indegree m s.id - 1)).sum : Nat) ∧
    (r.cyc = true ↔ c0 = true ∨ ∃ i j, Edge m i j ∧ Reach m j i) := by
  have hedge : (∃ j s k t, 0 ≤ j ∧ m[j]? = some s ∧ m[k]? = some t ∧ (∃ o ∈ t.outs, o.1 = s.id) ∧ Reach m j k) ↔ ∃ i j, Edge m i j ∧ Reach m j i := by
    constructor
    · rintro ⟨j, s, k, t, _, h1, h2, ⟨o, h3, h4⟩, h5⟩
      exact ⟨k, j, edge_of h2 h1 h3 h4, h5⟩
    · rintro ⟨i, j, ⟨s, t, a, o, h1, h2, h3, h4, h5⟩, h6⟩
      refine ⟨j, t, i, s, Nat.zero_le _, h2, h1, ⟨o, ?_, h5⟩, h6⟩
      cases ha : s.actions with
      | nil => rw [ha] at h3; cases h3
      | cons b bs =>
        have := head_of (hp.chain.single s (List.mem_of_getElem? h1)) ha h3
        subst this
        rw [outs_cons ha]; exact h4
  obtain ⟨e, i, s, ⟨z1, z2⟩, _, _, _, _, hr⟩ := evaluate_inv hp hc (c0 := c0)
    (fun e => e.merges = (((m.filter (fun s => s.id ≠ goal)).map (fun s => indegree m s.id - 1)).sum : Nat) ∧
      (e.cyc = true ↔ c0 = true ∨ ∃ i j, Edge m i j ∧ Reach m j i))
    (fun e1 h1 _ _ => by
      obtain ⟨a, b⟩ := sweep_merges hp.chain (ss := m) (i := 0) rfl h1
      refine ⟨?_, ?_⟩
      · rw [a, if_pos rfl]
        simp only [ev0, indegree_eq hp.chain, Int.zero_add]
      · rw [b, ← hedge]; simp [ev0])
    (fun e e1 _ hP h1 _ _ => by
      obtain ⟨a, b⟩ := sweep_merges hp.chain (ss := m) (i := 0) rfl h1
      refine ⟨?_, ?_⟩
      · rw [a, if_neg (by simp)]; have := hP.1; push_cast at this ⊢; rw [← this]; simp
      · rw [b, ← hP.2]; simp) h
  subst hr
  exact ⟨z1, z2⟩

/-! ### the probability of the goal -/

open Finset in
/-- a sum over positions in which only one term is not zero -/
theorem sum_pos (hm : Chain m) (f : Int → ℚ) {id : Int} (h : ∃ t ∈ m, t.id = id) :
    (∑ j ∈ range m.length, if (m[j]?.map State.id) = some id then f id else 0) = f id := by
  obtain ⟨i, hi⟩ := find_of_mem h
  obtain ⟨t, t1, t2⟩ := find_some hi
  have hil : i < m.length := (List.getElem?_eq_some_iff.mp t1).1
  rw [Finset.sum_eq_single i]
  · rw [t1]; simp [t2]
  · intro j hj hne
    rw [if_neg]
    intro q
    obtain ⟨u, u1, u2⟩ := Option.map_eq_some_iff.mp q
    have := find_unique hm.ids u1 u2
    rw [hi] at this
    exact hne (Option.some.inj this).symm
  · intro hn; exact absurd (mem_range.mpr hil) hn

/-- ID of the state at a position -/
def idAt (m : List State) (j : Nat) : Int := ((m[j]?).map State.id).getD 0
/-- outcomes of the state at a position -/
def outsAt (m : List State) (j : Nat) : List (Int × Int × ℚ) := ((m[j]?).map State.outs).getD []

theorem inflow_range {pcv : Nat → ℚ} {id : Int} : ∀ {ss : List State} {j : Nat}, m.drop j = ss →
    inflow pcv id ss j = ∑ i ∈ Finset.range ss.length, pcv (j + i) * into id (outsAt m (j + i))
  | [], _, _ => by simp [inflow]
  | s :: ss, j, h => by
    have hi : m[j]? = some s := by
      have := congrArg (fun l => l[0]?) h
      simpa using this
    have h' : m.drop (j + 1) = ss := by
      have := congrArg List.tail h
      simpa using this
    rw [inflow, inflow_range h', List.length_cons, Finset.sum_range_succ']
    rw [add_comm]
    congr 1
    · apply Finset.sum_congr rfl
      intro i _
      rw [show j + 1 + i = j + (i + 1) by omega]
    · simp [outsAt, hi]

theorem outs_sum (hm : Chain m) (f : Int → ℚ) : ∀ {os : List (Int × Int × ℚ)}, (∀ o ∈ os, ∃ t ∈ m, t.id = o.1) →
    (os.map (fun o => o.2.2 * f o.1)).sum = ∑ j ∈ Finset.range m.length, into (idAt m j) os * f (idAt m j)
  | [], _ => by simp [into]
  | o :: os, h => by
    rw [List.map_cons, List.sum_cons, outs_sum hm f (fun x hx => h x (List.mem_cons_of_mem _ hx)), ← sum_pos hm (fun id => o.2.2 * f id) (h o List.mem_cons_self), ← Finset.sum_add_distrib]
    apply Finset.sum_congr rfl
    intro j hj
    have hjl := Finset.mem_range.mp hj
    have hid : idAt m j = m[j].id := by simp [idAt, hjl]
    by_cases q : o.1 = m[j].id
    · rw [if_pos (by simp [hjl, q]), hid, q]
      simp only [into, List.filter_cons, q, decide_true, if_true, List.map_cons, List.sum_cons]
      ring
    · rw [if_neg (by simp [hjl]; exact fun e => q e.symm), hid]
      simp only [into, List.filter_cons, q, decide_false, zero_add]
      simp

theorem ordered_stable (hp : Policy m start) (ho : Ordered m) : ∀ {k j : Nat} {s : State}, m[j]? = some s → m.length ≤ k + j →
    reachIn m goal (k + 1) s.id = reachIn m goal k s.id
  | 0, j, s, hj, hk => by have := (List.getElem?_eq_some_iff.mp hj).1; omega
  | k + 1, j, s, hj, hk => by
    have hs := List.mem_of_getElem? hj
    rw [reachIn, reachIn]
    split
    · rfl
    · rw [outcomes_of hp.chain hs]
      congr 1
      apply List.map_congr_left
      intro o hoo
      obtain ⟨t, t1, t2⟩ := out_pos hp.chain hs hoo
      have := ho j (pos m o.1) (edge_of hj t1 hoo t2.symm)
      rw [← t2, ordered_stable hp ho t1 (by omega)]

theorem ordered_after (hp : Policy m start) (ho : Ordered m) {g : Nat} {gs : State} (hg : m[g]? = some gs) (hgg : gs.id = goal) :
    ∀ {k j : Nat} {s : State}, m[j]? = some s → g < j → reachIn m goal k s.id = 0
  | k, j, s, hj, hlt => by
    have hne : s.id ≠ goal := fun e => by
      have a1 := find_unique hp.chain.ids hj e
      rw [find_unique hp.chain.ids hg hgg] at a1
      have := Option.some.inj a1
      omega
    cases k with
    | zero => rw [reachIn, if_neg hne]
    | succ k =>
      have hs := List.mem_of_getElem? hj
      rw [reachIn, if_neg hne, outcomes_of hp.chain hs]
      have : s.outs.map (fun o => o.2.2 * reachIn m goal k o.1) = s.outs.map (fun _ => 0) := by
        apply List.map_congr_left
        intro o hoo
        obtain ⟨t, t1, t2⟩ := out_pos hp.chain hs hoo
        have := ho j (pos m o.1) (edge_of hj t1 hoo t2.symm)
        rw [← t2, ordered_after hp ho hg hgg (k := k) t1 (by omega), mul_zero]
      rw [this]; simp

theorem getElem_at {j : Nat} {s : State} (h : m[j]? = some s) : idAt m j = s.id ∧ outsAt m j = s.outs := by simp [idAt, outsAt, h]

/-- **C108.**  If the states are listed in an order in which outcomes come after their states, `*Pcgoal` is the probability
that the policy reaches the goal from the start. -/
theorem evaluate_goal_probability (hp : Policy m start) (hc : Complete m goal) (ho : Ordered m) (hg : ∃ g ∈ m, g.id = goal)
    (h : evaluate m start goal c0 fuel = .ok r) : ∀ k, m.length ≤ k → r.pcGoal = reachIn m goal k start := by
  obtain ⟨e, si, ss, hP, _, _, hsi, hss, hr⟩ := evaluate_inv hp hc (c0 := c0) (fun e => EvPr.PInv m start goal e m.length)
    (fun e1 h1 _ _ => sweep_prob hp.chain ho (i := 0) rfl h1 ⟨fun j s hj => absurd hj (Nat.not_lt_zero _), fun j s hj hs => by
      simp [ev0, hj, hs], fun j s hj => absurd hj (Nat.not_lt_zero _)⟩)
    (fun e e1 _ hP h1 _ _ => sweep_prob hp.chain ho (i := 0) rfl h1 ⟨fun j s hj => absurd hj (Nat.not_lt_zero _), hP.st, fun j s hj => absurd hj (Nat.not_lt_zero _)⟩) h
  intro k hk
  obtain ⟨gs, hgm, hgg⟩ := hg
  obtain ⟨g, hg⟩ := List.getElem?_of_mem hgm
  have hgl : g < m.length := (List.getElem?_eq_some_iff.mp hg).1
  have hsl : si < m.length := (List.getElem?_eq_some_iff.mp hsi).1
  have hpc : r.pcGoal = e.pc g := by subst hr; exact hP.gl g gs hgl hg hgg
  -- w i j: probability of the step from position i to position j
  have hw : ∀ i j, i < m.length → j < m.length → ¬ i < j → into (idAt m j) (outsAt m i) = 0 := by
    intro i j hi hj hn
    rw [(getElem_at (m := m) (j := i) (s := m[i]) (by simp [hi])).2, (getElem_at (m := m) (j := j) (s := m[j]) (by simp [hj])).1]
    exact into_zero (fun o hoo eo => hn (ho i j (edge_of (by simp [hi]) (by simp [hj]) hoo eo)))
  have hcol : ∀ j, j < m.length → j ≠ si → e.pc j = ∑ i ∈ Finset.range m.length, e.pc i * into (idAt m j) (outsAt m i) := by
    intro j hj hne
    have h1 : m[j]? = some m[j] := by simp [hj]
    have := hP.done j m[j] hj h1 (fun q => hne (by
      have a1 := find_unique hp.chain.ids h1 q
      rw [find_unique hp.chain.ids hsi hss] at a1
      exact (Option.some.inj a1).symm))
    rw [this, inflow_range (m := m) (ss := m) (j := 0) rfl, (getElem_at h1).1]
    simp
  have hzero : ∀ j, j < si → e.pc j = 0 := by
    intro j
    induction j using Nat.strong_induction_on with
    | _ j ih =>
      intro hj
      rw [hcol j (by omega) (by omega)]
      apply Finset.sum_eq_zero
      intro i hi
      have hil := Finset.mem_range.mp hi
      by_cases q : i < j
      · rw [ih i q (by omega), zero_mul]
      · rw [hw i j hil (by omega) q, mul_zero]
  have hcols : ∑ i ∈ Finset.range m.length, e.pc i * into (idAt m si) (outsAt m i) = 0 := by
    apply Finset.sum_eq_zero
    intro i hi
    have hil := Finset.mem_range.mp hi
    by_cases q : i < si
    · rw [hzero i q, zero_mul]
    · rw [hw i si hil hsl q, mul_zero]
  -- R j: probability of reaching the goal from position j
  have hrow : ∀ i, i < m.length → ∑ j ∈ Finset.range m.length, into (idAt m j) (outsAt m i) * reachIn m goal k (idAt m j) = if i = g then 0 else reachIn m goal k (idAt m i) := by
    intro i hi
    have h1 : m[i]? = some m[i] := by simp [hi]
    have hmi : m[i] ∈ m := List.getElem_mem hi
    by_cases q : i = g
    · rw [if_pos q]
      apply Finset.sum_eq_zero
      intro j hj
      have hjl := Finset.mem_range.mp hj
      by_cases q2 : i < j
      · have h2 : m[j]? = some m[j] := by simp [hjl]
        rw [(getElem_at h2).1, ordered_after hp ho hg hgg (k := k) h2 (by omega), mul_zero]
      · rw [hw i j hi hjl q2, zero_mul]
    · rw [if_neg q, (getElem_at h1).1, (getElem_at h1).2, ← ordered_stable hp ho h1 (by omega), reachIn, outcomes_of hp.chain hmi]
      rw [if_neg]
      · rw [outs_sum hp.chain (reachIn m goal k)]
        intro o hoo
        obtain ⟨t, t1, t2⟩ := out_pos hp.chain hmi hoo
        exact ⟨t, List.mem_of_getElem? t1, t2⟩
      · intro q2
        have a1 := find_unique hp.chain.ids h1 q2
        rw [find_unique hp.chain.ids hg hgg] at a1
        exact q (Option.some.inj a1).symm
  have hD1 : ∑ i ∈ Finset.range m.length, ∑ j ∈ Finset.range m.length, e.pc i * (into (idAt m j) (outsAt m i) * reachIn m goal k (idAt m j)) =
      (∑ i ∈ Finset.range m.length, e.pc i * reachIn m goal k (idAt m i)) - e.pc g := by
    have : ∀ i ∈ Finset.range m.length, ∑ j ∈ Finset.range m.length, e.pc i * (into (idAt m j) (outsAt m i) * reachIn m goal k (idAt m j)) =
        e.pc i * reachIn m goal k (idAt m i) - (if i = g then e.pc g else 0) := by
      intro i hi
      rw [← Finset.mul_sum, hrow i (Finset.mem_range.mp hi)]
      by_cases q : i = g
      · subst q
        rw [if_pos rfl, if_pos rfl, (getElem_at hg).1, hgg]
        have : reachIn m goal k goal = 1 := by cases k <;> simp [reachIn]
        rw [this]; ring
      · rw [if_neg q, if_neg q]; ring
    rw [Finset.sum_congr rfl this, Finset.sum_sub_distrib]
    congr 1
    rw [Finset.sum_ite_eq' (Finset.range m.length) g (fun _ => e.pc g), if_pos (Finset.mem_range.mpr hgl)]
  have hD2 : ∑ i ∈ Finset.range m.length, ∑ j ∈ Finset.range m.length, e.pc i * (into (idAt m j) (outsAt m i) * reachIn m goal k (idAt m j)) =
      (∑ j ∈ Finset.range m.length, e.pc j * reachIn m goal k (idAt m j)) - reachIn m goal k start := by
    rw [Finset.sum_comm]
    have : ∀ j ∈ Finset.range m.length, ∑ i ∈ Finset.range m.length, e.pc i * (into (idAt m j) (outsAt m i) * reachIn m goal k (idAt m j)) =
        e.pc j * reachIn m goal k (idAt m j) - (if j = si then reachIn m goal k start else 0) := by
      intro j hj
      have e1 : ∀ i, e.pc i * (into (idAt m j) (outsAt m i) * reachIn m goal k (idAt m j)) = (e.pc i * into (idAt m j) (outsAt m i)) * reachIn m goal k (idAt m j) := fun i => by ring
      simp only [e1]
      rw [← Finset.sum_mul]
      by_cases q : j = si
      · subst q
        rw [hcols, if_pos rfl, hP.st j ss hsi hss, (getElem_at hsi).1, hss]; ring
      · rw [← hcol j (Finset.mem_range.mp hj) q, if_neg q]; ring
    rw [Finset.sum_congr rfl this, Finset.sum_sub_distrib]
    congr 1
    rw [Finset.sum_ite_eq' (Finset.range m.length) si (fun _ => reachIn m goal k start), if_pos (Finset.mem_range.mpr hsl)]
  rw [hpc]
  linarith

end
end Sbpl.EvProps
