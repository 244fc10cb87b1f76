import Verif.Proofs.EvalPolicy
/-! # EvaluatePolicy: merges, cycles and the probability of the goal -/

namespace Sbpl.EvPr
open MDP MDPSpec EvSpec MDPProps

section
variable {m : List State} {start goal : Int}

/-- number of outcomes leading to `id` -/
def indeg (m : List State) (id : Int) : Nat := (m.map (fun s => (s.outs.filter (fun o => o.1 = id)).length)).sum

/-- a step that goes on is the second half of the body after some change of the values -/
theorem stateStep_pc {first : Bool} {i : Nat} {s : State} {e e1 : Ev} (h : stateStep m start goal first i s e = .ok (false, e1)) :
    ∃ e0, pcPart m start goal first i s.id e0 = .ok e1 ∧ e0.pc = e.pc ∧ e0.pcGoal = e.pcGoal ∧ e0.merges = e.merges ∧ e0.cyc = e.cyc := by
  unfold stateStep at h
  by_cases hg : s.id = goal
  · rw [if_pos hg] at h
    cases hp : pcPart m start goal first i s.id { e with vals := upd e.vals i 0 } with
    | error x => rw [hp] at h; cases h
    | ok e2 => rw [hp] at h; cases h; exact ⟨_, hp, rfl, rfl, rfl, rfl⟩
  · rw [if_neg hg] at h
    cases ha : s.actions with
    | nil => rw [ha] at h; cases h
    | cons a as =>
      rw [ha] at h
      dsimp only at h
      cases hb : backupQ m e.vals a.outs 0 with
      | error x => rw [hb] at h; cases h
      | ok q =>
        rw [hb] at h
        dsimp only at h
        by_cases hq : e.vals i > q
        · rw [if_pos hq] at h; cases h
        · rw [if_neg hq] at h
          cases hp : pcPart m start goal first i s.id { e with delta := if e.delta < q - e.vals i then q - e.vals i else e.delta, vals := upd e.vals i q } with
          | error x => rw [hp] at h; cases h
          | ok e2 => rw [hp] at h; cases h; exact ⟨_, hp, rfl, rfl, rfl, rfl⟩

/-- merges and cycles after a pass from position `i` on -/
theorem sweep_merges (hm : Chain m) {first : Bool} : ∀ {ss : List State} {i : Nat} {e e1 : Ev}, m.drop i = ss → sweep m start goal first ss i e = .ok (false, e1) →
    e1.merges = e.merges + (if first = true then (((ss.filter (fun s => s.id ≠ goal)).map (fun s => indeg m s.id - 1)).sum : Nat) else 0) ∧
    (e1.cyc = true ↔ e.cyc = true ∨ (first = true ∧ ∃ j s k t, i ≤ j ∧ m[j]? = some s ∧ m[k]? = some t ∧ (∃ o ∈ t.outs, o.1 = s.id) ∧ Reach m j k))
  | [], i, e, e1, hss, h => by
    cases h
    refine ⟨by split <;> simp, ⟨Or.inl, ?_⟩⟩
    rintro (h | ⟨_, j, s, k, t, h1, h2, _⟩)
    · exact h
    · have hge : m.length ≤ i := by simpa using hss
      have := (List.getElem?_eq_some_iff.mp h2).1
      omega
  | s :: ss, i, e, e1, hss, h => by
    have hi : m[i]? = some s := by
      have := congrArg (fun l => l[0]?) hss
      simpa using this
    have hil : i < m.length := (List.getElem?_eq_some_iff.mp hi).1
    have hss' : m.drop (i + 1) = ss := by
      have := congrArg List.tail hss
      simpa using this
    unfold sweep at h
    cases hs : stateStep m start goal first i s e with
    | error x => rw [hs] at h; cases h
    | ok r =>
      obtain ⟨b, e2⟩ := r
      rw [hs] at h
      cases b with
      | true => cases h
      | false =>
        dsimp only at h
        obtain ⟨r1, r2⟩ := sweep_merges hm hss' h
        obtain ⟨e0, p1, p2, p3, p4, p5⟩ := stateStep_pc hs
        obtain ⟨e3, q1, _, _, _, _, _, q2, q3⟩ := pcPart_ok (start := start) (goal := goal) hm (first := first) (id := s.id) (e := e0) hil
        rw [p1] at q1; cases q1
        constructor
        · rw [r1, q2, p4]
          by_cases hf : first = true
          · simp only [hf, if_true, true_and]
            by_cases hg : s.id = goal
            · simp [hg]
            · simp only [ne_eq, hg, not_false_eq_true, if_true, decide_true, List.filter_cons_of_pos, List.map_cons, List.sum_cons]
              unfold indeg
              push_cast
              ring
          · simp [hf]
        · rw [r2, q3, p5]
          constructor
          · rintro ((h | ⟨hf, k, t, a1, a2, a3⟩) | ⟨hf, j, u, k, t, b1, b2, b3, b4, b5⟩)
            · exact Or.inl h
            · exact Or.inr ⟨hf, i, s, k, t, le_refl _, hi, a1, a2, a3⟩
            · exact Or.inr ⟨hf, j, u, k, t, by omega, b2, b3, b4, b5⟩
          · rintro (h | ⟨hf, j, u, k, t, b1, b2, b3, b4, b5⟩)
            · exact Or.inl (Or.inl h)
            · by_cases hj : j = i
              · subst hj; rw [hi] at b2; cases b2
                exact Or.inl (Or.inr ⟨hf, k, t, b3, b4, b5⟩)
              · exact Or.inr ⟨hf, j, u, k, t, by omega, b2, b3, b4, b5⟩

/-- a property kept by every pass after the first holds at the end -/
theorem evLoop_later (hp : Policy m start) (hc : Complete m goal) (P : Ev → Prop)
    (hP : ∀ e e1, LInv m goal false e → P e → sweep m start goal false m 0 { e with delta := 0 } = .ok (false, e1) → LInv m goal false e1 →
      SInv m goal e.vals e1.vals e1.delta m.length → P e1) :
    ∀ {fuel : Nat} {e e1 : Ev}, LInv m goal false e → P e → evLoop m start goal fuel false e = .ok e1 → P e1 ∧ LInv m goal false e1 ∧ e1.delta ≤ 1 / 10
  | 0, _, _, _, _, h => by cases h
  | fuel + 1, e, e1, hl, hPe, h => by
    unfold evLoop at h
    by_cases hd : e.delta > 1 / 10
    · rw [if_pos hd] at h
      obtain ⟨b, e2, h1, h2, h3⟩ := turn_ok hp hl
      rw [h1] at h
      cases b with
      | true => exact absurd hc (h2 rfl).2
      | false => exact evLoop_later hp hc P hP (h3 rfl).1 (hP e e2 hl hPe h1 (h3 rfl).1 (h3 rfl).2) h
    · rw [if_neg hd] at h; cases h; exact ⟨hPe, hl, not_lt.mp hd⟩

/-- a property established by the first pass and kept by the others holds of the result -/
theorem evaluate_inv (hp : Policy m start) (hc : Complete m goal) {c0 : Bool} {fuel : Nat} {r : EvRes} (P : Ev → Prop)
    (h0 : ∀ e1, sweep m start goal true m 0 { ev0 m start c0 with delta := 0 } = .ok (false, e1) → LInv m goal false e1 →
      SInv m goal (fun _ => 0) e1.vals e1.delta m.length → P e1)
    (hP : ∀ e e1, LInv m goal false e → P e → sweep m start goal false m 0 { e with delta := 0 } = .ok (false, e1) → LInv m goal false e1 →
      SInv m goal e.vals e1.vals e1.delta m.length → P e1)
    (h : evaluate m start goal c0 fuel = .ok r) :
    ∃ e i s, P e ∧ LInv m goal false e ∧ e.delta ≤ 1 / 10 ∧ m[i]? = some s ∧ s.id = start ∧ r = ⟨e.vals i, e.full, e.pcGoal, e.merges, e.cyc⟩ := by
  unfold evaluate at h
  have hl : LInv m goal true (ev0 m start c0) := linv_init hp
  cases he : evLoop m start goal fuel true (ev0 m start c0) with
  | error x => rw [he] at h; cases h
  | ok e =>
    rw [he] at h
    dsimp only at h
    obtain ⟨k, s, h3, h4, h5⟩ := startInd_some (i := 0) (r := none) hp.start
    rw [h3] at h
    dsimp only at h
    cases fuel with
    | zero => cases he
    | succ fuel =>
      unfold evLoop at he
      rw [if_pos (show (ev0 m start c0).delta > 1 / 10 from hl.big rfl)] at he
      obtain ⟨b, e2, q1, q2, q3⟩ := turn_ok hp hl
      rw [q1] at he
      cases b with
      | true => exact absurd hc (q2 rfl).2
      | false =>
        obtain ⟨g1, g2, g3⟩ := evLoop_later hp hc P hP (q3 rfl).1 (h0 e2 q1 (q3 rfl).1 (q3 rfl).2) he
        exact ⟨e, 0 + k, s, g1, g2, g3, by simpa using h4, h5, by cases h; rfl⟩

/-- the values after a step that goes on -/
theorem stateStep_vals {first : Bool} {i : Nat} {s : State} {e e1 : Ev} (hm : Chain m) (hi : m[i]? = some s) (h : stateStep m start goal first i s e = .ok (false, e1)) :
    (s.id = goal ∧ e1.vals = upd e.vals i 0) ∨ (s.id ≠ goal ∧ ∃ a ∈ s.actions, e1.vals = upd e.vals i (Qs m e.vals a.outs)) := by
  have hil : i < m.length := (List.getElem?_eq_some_iff.mp hi).1
  unfold stateStep at h
  by_cases hg : s.id = goal
  · rw [if_pos hg] at h
    obtain ⟨e3, q1, q2, _⟩ := pcPart_ok (start := start) (goal := goal) hm (first := first) (id := s.id) (e := { e with vals := upd e.vals i 0 }) hil
    rw [q1] at h
    cases h
    exact Or.inl ⟨hg, q2⟩
  · rw [if_neg hg] at h
    cases ha : s.actions with
    | nil => rw [ha] at h; cases h
    | cons a as =>
      rw [ha] at h
      dsimp only at h
      rw [backupQ_ok (hm.succs s (List.mem_of_getElem? hi) a (by rw [ha]; exact List.mem_cons_self)), zero_add] at h
      dsimp only at h
      by_cases hq : e.vals i > Qs m e.vals a.outs
      · rw [if_pos hq] at h; cases h
      · rw [if_neg hq] at h
        obtain ⟨e3, q1, q2, _⟩ := pcPart_ok (start := start) (goal := goal) hm (first := first) (id := s.id)
          (e := { e with delta := if e.delta < Qs m e.vals a.outs - e.vals i then Qs m e.vals a.outs - e.vals i else e.delta, vals := upd e.vals i (Qs m e.vals a.outs) }) hil
        rw [q1] at h
        cases h
        exact Or.inr ⟨hg, a, List.mem_cons_self, q2⟩

/-- with certain outcomes the values stay whole numbers -/
theorem sweep_int (hm : Chain m) (hd : Deterministic m) {first : Bool} : ∀ {ss : List State} {i : Nat} {e e1 : Ev}, m.drop i = ss → sweep m start goal first ss i e = .ok (false, e1) →
    (∀ j, ∃ z : Int, e.vals j = z) → ∀ j, ∃ z : Int, e1.vals j = z
  | [], i, e, e1, hss, h, hz => by cases h; exact hz
  | s :: ss, i, e, e1, hss, h, hz => by
    have hi : m[i]? = some s := by
      have := congrArg (fun l => l[0]?) hss
      simpa using this
    have hss' : m.drop (i + 1) = ss := by
      have := congrArg List.tail hss
      simpa using this
    unfold sweep at h
    cases hs : stateStep m start goal first i s e with
    | error x => rw [hs] at h; cases h
    | ok r =>
      obtain ⟨b, e2⟩ := r
      rw [hs] at h
      cases b with
      | true => cases h
      | false =>
        dsimp only at h
        refine sweep_int hm hd hss' h ?_
        intro j
        rcases stateStep_vals hm hi hs with ⟨_, q⟩ | ⟨_, a, ha, q⟩
        · rw [q]
          by_cases e' : j = i
          · exact ⟨0, by subst e'; simp⟩
          · rw [upd_other _ _ e']; exact hz j
        · rw [q]
          by_cases e' : j = i
          · subst e'
            rw [upd_same]
            obtain ⟨t, c, hac⟩ := hd s (List.mem_of_getElem? hi) a ha
            obtain ⟨z, hz'⟩ := hz (pos m t)
            refine ⟨z + c, ?_⟩
            rw [hac]
            simp [Qs, hz']
          · rw [upd_other _ _ e']; exact hz j

/-! ## the probability of the goal -/

theorem into_zero {id : Int} {os : List (Int × Int × ℚ)} (h : ∀ o ∈ os, o.1 ≠ id) : into id os = 0 := by
  unfold into
  rw [List.filter_eq_nil_iff.mpr (by simpa using h)]; rfl

theorem inflow_upd {pcv : Nat → ℚ} {id : Int} {i : Nat} {x : ℚ} : ∀ {ss : List State} {j : Nat}, (∀ k s, ss[k]? = some s → j + k = i → into id s.outs = 0) →
    inflow (upd pcv i x) id ss j = inflow pcv id ss j
  | [], _, _ => rfl
  | s :: ss, j, h => by
    unfold inflow
    rw [inflow_upd (fun k t hk e => h (k + 1) t (by simpa using hk) (by omega))]
    by_cases e : j = i
    · rw [h 0 s rfl (by omega)]; simp
    · rw [upd_other _ _ e]

theorem edge_of {i j : Nat} {s t : State} (hi : m[i]? = some s) (hj : m[j]? = some t) {o : Int × Int × ℚ} (ho : o ∈ s.outs) (e : o.1 = t.id) : Edge m i j := by
  unfold State.outs at ho
  cases ha : s.actions with
  | nil => rw [ha] at ho; cases ho
  | cons a as =>
    rw [ha] at ho
    exact ⟨s, t, a, o, hi, hj, by rw [ha]; exact List.mem_cons_self, ho, e⟩

/-- during a pass over an ordered chain: positions before `i` have their final probability -/
structure PInv (m : List State) (start goal : Int) (e : Ev) (i : Nat) : Prop where
  done : ∀ j s, j < i → m[j]? = some s → s.id ≠ start → e.pc j = inflow e.pc s.id m 0
  st : ∀ j s, m[j]? = some s → s.id = start → e.pc j = 1
  gl : ∀ j s, j < i → m[j]? = some s → s.id = goal → e.pcGoal = e.pc j

theorem sweep_prob (hm : Chain m) (ho : Ordered m) {first : Bool} : ∀ {ss : List State} {i : Nat} {e e1 : Ev}, m.drop i = ss → sweep m start goal first ss i e = .ok (false, e1) →
    PInv m start goal e i → PInv m start goal e1 m.length
  | [], i, e, e1, hss, h, hI => by
    cases h
    have hge : m.length ≤ i := by simpa using hss
    exact ⟨fun j s hj => hI.done j s (by omega), hI.st, fun j s hj => hI.gl j s (by omega)⟩
  | s :: ss, i, e, e1, hss, h, hI => by
    have hi : m[i]? = some s := by
      have := congrArg (fun l => l[0]?) hss
      simpa using this
    have hil : i < m.length := (List.getElem?_eq_some_iff.mp hi).1
    have hss' : m.drop (i + 1) = ss := by
      have := congrArg List.tail hss
      simpa using this
    unfold sweep at h
    cases hs : stateStep m start goal first i s e with
    | error x => rw [hs] at h; cases h
    | ok r =>
      obtain ⟨b, e2⟩ := r
      rw [hs] at h
      cases b with
      | true => cases h
      | false =>
        dsimp only at h
        refine sweep_prob hm ho hss' h ?_
        obtain ⟨e0, p1, p2, p3, p4, p5⟩ := stateStep_pc hs
        obtain ⟨e3, q1, _, _, _, q2, q3, _⟩ := pcPart_ok (start := start) (goal := goal) hm (first := first) (id := s.id) (e := e0) hil
        rw [p1] at q1; cases q1
        rw [p2] at q2
        -- the new probability of position i does not influence the inflow of earlier positions
        have hflow : ∀ j t, j ≤ i → m[j]? = some t → inflow e2.pc t.id m 0 = inflow e.pc t.id m 0 := by
          intro j t hj ht
          rw [q2]
          split
          · refine inflow_upd (fun k u hk e' => into_zero (fun o hou eo => ?_))
            have hk' : k = i := by omega
            subst hk'
            have := ho k j (edge_of hk ht hou eo)
            omega
          · rfl
        have hpc : ∀ j, j ≠ i → e2.pc j = e.pc j := by
          intro j hj
          rw [q2]
          split
          · rw [upd_other _ _ hj]
          · rfl
        refine ⟨?_, ?_, ?_⟩
        · intro j t hj ht hst
          rw [hflow j t (by omega) ht]
          by_cases e' : j = i
          · subst e'
            rw [hi] at ht; cases ht
            rw [q2, if_pos hst, upd_same]
          · rw [hpc j e']; exact hI.done j t (by omega) ht hst
        · intro j t ht hst
          by_cases e' : j = i
          · subst e'
            rw [hi] at ht; cases ht
            rw [q2, if_neg (fun q => q hst)]
            exact hI.st j s hi hst
          · rw [hpc j e']; exact hI.st j t ht hst
        · intro j t hj ht hgt
          rw [q3]
          by_cases hg : s.id = goal
          · rw [if_pos hg]
            have : j = i := by
              have a1 := find_unique hm.ids hi hg
              rw [find_unique hm.ids ht hgt] at a1
              exact Option.some.inj a1
            rw [this]
          · rw [if_neg hg, p3]
            by_cases e' : j = i
            · subst e'; rw [hi] at ht; cases ht; exact absurd hgt hg
            · rw [hpc j e']; exact hI.gl j t (by omega) ht hgt

end
end Sbpl.EvPr
