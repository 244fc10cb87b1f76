import Verif.Props.RobArm
import Verif.Props.Nav2DARA
import Mathlib.Logic.Equiv.List
/-!
# ARA* on `EnvironmentROBARM`, end to end (C116, C117)
-/
set_option linter.unusedSectionVars false

namespace Sbpl.ArmARAProps
open RobArm ArmSpec ArmPr ArmProps GraphSpec PlannerSpec ARA

variable {K : Type} [Field K] [LinearOrder K] [IsStrictOrderedRing K] [FloorRing K] {c : Cfg K} {num : List Nat → Nat} {den : Nat → Option (List Nat)}
  {h : Nat → Nat → Nat}

theorem isValid_dec (ok : CfgOk c) {k : List Nat} (hk : IsConf c k) : (match c.isValid k with | .ok true => true | _ => false) = true ↔ Valid c k := by
  rcases isValid_correct ok hk with ⟨e, v⟩ | ⟨e, v⟩ <;> rw [e] <;> simp [v]

theorem succs_iff (ok : CfgOk c) (hne : c.links ≠ []) (N : ANumbering c num den) {gl i j n : Nat} :
    (j, n) ∈ (armPEnv c h num den).succs gl i ↔ i ≠ 1 ∧ n = 1 ∧ ∃ k k', den i = some k ∧ Turned c.links k k' ∧ Valid c k' ∧
      ((j = 1 ∧ (AtGoal c k' ∨ (k' = zero c ∧ c.startCoord ≠ zero c))) ∨ (j = num k' ∧ ¬ (AtGoal c k' ∨ (k' = zero c ∧ c.startCoord ≠ zero c)))) := by
  simp only [armPEnv]
  by_cases hi : i = 1
  · subst hi
    rw [if_pos (show (1 : Nat) = goalId from rfl)]
    simp
  rw [if_neg (show ¬ i = goalId from hi)]
  cases hp : den i with
  | none => simp
  | some k =>
    obtain ⟨_, ck, vk⟩ := N.right _ _ hi hp
    simp only [List.mem_map, List.mem_filter]
    constructor
    · rintro ⟨k', ⟨hm, hv⟩, e⟩
      have ht := (mem_moves ok.vals ck).mp hm
      have ck' : Canon c k' := Turned.canon ok.vals ck ht
      have hv : Valid c k' := (isValid_dec ok (Canon.isConf ck')).mp hv
      refine ⟨hi, ?_, k, k', rfl, ht, hv, ?_⟩
      · cases e; rfl
      · rw [atGoal_iff ok hne hv]
        by_cases hg : c.endCell k' = (c.gx, c.gy) ∨ (k' = zero c ∧ c.startCoord ≠ zero c)
        · rw [if_pos (show c.endCell k' = (c.gx, c.gy) ∨ (k' = (c.links.map fun _ => 0) ∧ c.startCoord ≠ (c.links.map fun _ => 0)) from hg)] at e
          cases e; exact .inl ⟨rfl, hg⟩
        · rw [if_neg (show ¬ (c.endCell k' = (c.gx, c.gy) ∨ (k' = (c.links.map fun _ => 0) ∧ c.startCoord ≠ (c.links.map fun _ => 0))) from hg)] at e
          cases e; exact .inr ⟨rfl, hg⟩
    · rintro ⟨_, rfl, k1, k', e1, ht, hv, hj⟩
      cases e1
      have ck' : Canon c k' := Turned.canon ok.vals ck ht
      refine ⟨k', ⟨(mem_moves ok.vals ck).mpr ht, (isValid_dec ok (Canon.isConf ck')).mpr hv⟩, ?_⟩
      rw [atGoal_iff ok hne hv] at hj
      rcases hj with ⟨rfl, hg⟩ | ⟨rfl, hg⟩
      · rw [if_pos (show c.endCell k' = (c.gx, c.gy) ∨ (k' = (c.links.map fun _ => 0) ∧ c.startCoord ≠ (c.links.map fun _ => 0)) from hg)]; rfl
      · rw [if_neg (show ¬ (c.endCell k' = (c.gx, c.gy) ∨ (k' = (c.links.map fun _ => 0) ∧ c.startCoord ≠ (c.links.map fun _ => 0))) from hg)]

/-- **C116** The list of GetSuccs in any reached environment is that of the planner's view, for every numbering that agrees with the tables (afterwards). -/
theorem armPEnv_succs (ok : CfgOk c) (hne : c.links ≠ []) (fine : FineSteps c) (hs : Canon c c.startCoord) {e e' : Env K} (hr : Reached c e) {n : Nat} {l : List (Nat × Nat)}
    (hg : e.getSuccs n = .ok (e', l)) (hA : Agrees e' num den) (gl : Nat) : (armPEnv c h num den).succs gl n = l := by
  classical
  by_cases hn : n = 1
  · subst hn
    rw [(ids_correct ok hne fine hs hr).1] at hg
    cases hg; rfl
  obtain ⟨vs, g, i, _⟩ := reached_inv ok hne fine hs hr
  cases hx : e.table[n]? with
  | none =>
    have : e.getSuccs n = .error .badId := by unfold Env.getSuccs; rw [if_neg (show ¬ n = goalId from hn), hx]
    rw [this] at hg; cases hg
  | some x =>
    obtain ⟨e1, l1, h1, i1, hp, _, hf⟩ := getSuccs_spec ok hne fine hs vs i hn hx
    rw [hg] at h1
    cases h1
    obtain ⟨cx, _, _⟩ := entry_ok i hs vs hn hx
    have hx' : e'.table[n]? = some x := by
      obtain ⟨r, hr⟩ := hp
      rw [← hr, List.getElem?_append_left (List.getElem?_eq_some_iff.mp hx).1]; exact hx
    have hd := (hA n x hn hx').2
    simp only [armPEnv]
    rw [if_neg (show ¬ n = goalId from hn), hd]
    dsimp only
    refine Eq.trans (congrArg (List.map _) (List.filter_congr (q := fun k => decide (Valid c k)) ?_)) ?_
    · intro k hk
      have ck : Canon c k := Turned.canon ok.vals cx ((mem_moves ok.vals cx).mp hk)
      have := isValid_dec ok (Canon.isConf ck)
      rw [← decide_eq_true_iff (p := Valid c k)] at this
      exact Bool.eq_iff_iff.mpr this
    clear hg hd
    generalize (moves c.links x.coord).filter (fun k => decide (Valid c k)) = ks at hf
    induction hf with
    | nil => rfl
    | @cons k p ks l hkp _ ih =>
      rw [List.map_cons, ih]
      congr 1
      obtain ⟨h1, h2⟩ := hkp
      unfold Stands at h1
      by_cases hg : c.endCell k = (c.gx, c.gy) ∨ (k = zero c ∧ c.startCoord ≠ zero c)
      · rw [if_pos hg] at h1
        rw [if_pos (show c.endCell k = (c.gx, c.gy) ∨ (k = (c.links.map fun _ => 0) ∧ c.startCoord ≠ (c.links.map fun _ => 0)) from hg)]
        exact Prod.ext h1.symm h2.symm
      · rw [if_neg hg] at h1
        rw [if_neg (show ¬ (c.endCell k = (c.gx, c.gy) ∨ (k = (c.links.map fun _ => 0) ∧ c.startCoord ≠ (c.links.map fun _ => 0))) from hg)]
        obtain ⟨h3, y, hy, ey⟩ := h1
        refine Prod.ext ?_ h2.symm
        show num k = p.1
        rw [← ey]; exact (hA _ _ h3 hy).1

/-- **C116** ... and so is the heuristic -/
theorem armPEnv_heur (ok : CfgOk c) (hne : c.links ≠ []) (fine : FineSteps c) (hs : Canon c c.startCoord) {e : Env K} (hr : Reached c e) {n : Nat}
    (hn : n < e.table.length) (hA : Agrees e num den) : e.goalHeuristic n = .ok ((armPEnv c e.heur num den).hGoal 1 n) := by
  obtain ⟨vs, g, i, _⟩ := reached_inv ok hne fine hs hr
  obtain ⟨x, hx⟩ : ∃ x, e.table[n]? = some x := ⟨_, List.getElem?_eq_getElem hn⟩
  unfold Env.goalHeuristic Env.fromToHeuristic
  rw [hx, show e.table[goalId]? = _ from i.goal]
  dsimp only
  simp only [armPEnv]
  rw [if_neg (show ¬ (1 : Nat) ≠ goalId from fun h => h rfl), i.cfg]
  by_cases h1 : n = 1
  · subst h1
    rw [i.goal] at hx; cases hx
    rw [if_pos (show (1 : Nat) = goalId from rfl)]
  · rw [if_neg (show ¬ n = goalId from h1), (hA n x h1 hx).2]
    dsimp only
    rw [(entry_ok i hs vs h1 hx).2.2]

/-- **C116** for every reached environment there is such a numbering -/
theorem numbering_exists (ok : CfgOk c) (hne : c.links ≠ []) (fine : FineSteps c) (hs : Canon c c.startCoord) {e : Env K} (hr : Reached c e) :
    ∃ num den, ANumbering c num den ∧ Agrees e num den := by
  classical
  obtain ⟨vs, g, i, _⟩ := reached_inv ok hne fine hs hr
  have hids := (ids_correct ok hne fine hs hr).2.2
  have hlen : 2 ≤ e.table.length := by have := (List.getElem?_eq_some_iff.mp i.goal).1; omega
  let P : List Nat → Prop := fun k => ∃ i, i ≠ 1 ∧ ∃ x, e.table[i]? = some x ∧ x.coord = k
  let num : List Nat → Nat := fun k => if hk : P k then Classical.choose hk else e.table.length + Encodable.encode k
  have inT : ∀ {i x}, i ≠ 1 → e.table[i]? = some x → num x.coord = i := by
    intro i x hi hx
    have hk : P x.coord := ⟨i, hi, x, hx, rfl⟩
    have : num x.coord = Classical.choose hk := dif_pos hk
    rw [this]
    obtain ⟨h1, y, hy, ey⟩ := Classical.choose_spec hk
    exact hids _ _ _ _ h1 hi hy hx ey
  have notT : ∀ {k}, ¬ P k → num k = e.table.length + Encodable.encode k := fun hk => dif_neg hk
  have ltT : ∀ {k}, P k → num k < e.table.length := by
    rintro k ⟨i, hi, x, hx, rfl⟩
    rw [inT hi hx]; exact (List.getElem?_eq_some_iff.mp hx).1
  have inj : ∀ {k k'}, num k = num k' → k = k' := by
    intro k k' he
    by_cases h1 : P k <;> by_cases h2 : P k'
    · obtain ⟨i, hi, x, hx, rfl⟩ := h1
      obtain ⟨j, hj, y, hy, rfl⟩ := h2
      rw [inT hi hx, inT hj hy] at he
      subst he
      rw [hx] at hy; cases hy; rfl
    · have := ltT h1; rw [he, notT h2] at this; omega
    · have := ltT h2; rw [← he, notT h1] at this; omega
    · rw [notT h1, notT h2] at he
      exact Encodable.encode_injective (by omega)
  have ne1 : ∀ k, num k ≠ 1 := by
    intro k he
    by_cases h1 : P k
    · obtain ⟨i, hi, x, hx, rfl⟩ := h1
      rw [inT hi hx] at he; exact hi he
    · rw [notT h1] at he; omega
  let den : Nat → Option (List Nat) := fun i => if hi : ∃ k, Canon c k ∧ Valid c k ∧ num k = i then some (Classical.choose hi) else none
  have denN : ∀ {k}, Canon c k → Valid c k → den (num k) = some k := by
    intro k ck vk
    have hk : ∃ k', Canon c k' ∧ Valid c k' ∧ num k' = num k := ⟨k, ck, vk, rfl⟩
    have : den (num k) = some (Classical.choose hk) := dif_pos hk
    rw [this, inj (Classical.choose_spec hk).2.2]
  refine ⟨num, den, ⟨fun k ck vk => denN ck vk, fun k _ _ => ne1 k, ?_, ?_⟩, ?_⟩
  · intro i k hi hd
    by_cases hk : ∃ k', Canon c k' ∧ Valid c k' ∧ num k' = i
    · have : den i = some (Classical.choose hk) := dif_pos hk
      rw [hd] at this
      obtain ⟨h1, h2, h3⟩ := Classical.choose_spec hk
      obtain rfl : k = Classical.choose hk := by simpa using this
      exact ⟨h3, h1, h2⟩
    · have : den i = none := dif_neg hk
      rw [hd] at this; cases this
  · exact inT (x := ⟨0, c.startCoord, (c.endCell c.startCoord).1, (c.endCell c.startCoord).2⟩) (by decide) i.start
  · intro n x hn hx
    have h1 := inT hn hx
    obtain ⟨h2, h3, _⟩ := entry_ok i hs vs hn hx
    exact ⟨h1, by rw [← h1]; exact denN h2 h3⟩

theorem arm_envOk : EnvOk (armPEnv c h num den) := by
  refine ⟨fun _ _ _ _ _ => rfl, fun _ _ _ he => he, ?_, ?_, ?_⟩
  · intro gl s t n hm
    simp only [armPEnv] at hm
    split at hm
    · cases hm
    · split at hm
      · cases hm
      · obtain ⟨k, _, e⟩ := List.mem_map.mp hm
        cases e; exact Nat.le_refl _
  · intro gl s t n hm; cases hm
  · intro gl s t n _ hm; cases hm

/-- the heuristic is consistent for a forward search -/
theorem arm_heurOk (ok : CfgOk c) (hne : c.links ≠ []) (fine : FineSteps c) (hz : ZeroHarmless c) (hg : InMap c (c.gx, c.gy)) {junk : Nat → Nat → Nat}
    (hh : c.computeHeur junk = .ok h) (N : ANumbering c num den) : HeurOk (armPEnv c h num den) true := by
  have hW : 1 ≤ c.W := by have := hg.1; omega
  have hd := (heuristics_iff_square ok hW junk).2 _ hh
  unfold HeurOk
  rw [if_pos rfl]
  intro gl
  by_cases e : gl = 1
  · subst e
    refine ⟨?_, ?_⟩
    · simp only [armPEnv]
      rw [if_neg (show ¬ (1 : Nat) ≠ goalId from fun h => h rfl), if_pos (show (1 : Nat) = goalId from rfl)]
      exact dist_self (hd _ _ hg hg)
    · intro s t n hm
      obtain ⟨s1, rfl, k, k', ds, ht, hv, hj⟩ := (succs_iff ok hne N).mp hm
      obtain ⟨_, ck, vk⟩ := N.right _ _ s1 ds
      have ck' : Canon c k' := Turned.canon ok.vals ck ht
      have hs : (armPEnv c h num den).hGoal 1 s = h (ind c.W (c.gx, c.gy)) (ind c.W (c.endCell k)) := by
        simp only [armPEnv]; rw [if_neg (show ¬ (1 : Nat) ≠ goalId from fun h => h rfl), if_neg (show ¬ s = goalId from s1), ds]
      have htv : (armPEnv c h num den).hGoal 1 t = h (ind c.W (c.gx, c.gy)) (ind c.W (c.endCell k')) := by
        simp only [armPEnv]; rw [if_neg (show ¬ (1 : Nat) ≠ goalId from fun h => h rfl)]
        rcases hj with ⟨rfl, hgl⟩ | ⟨rfl, _⟩
        · rw [if_pos (show (1 : Nat) = goalId from rfl)]
          have : AtGoal c k' := by
            rcases hgl with hgl | ⟨e1, e2⟩
            · exact hgl
            · rcases hz with h' | h' | h'
              · exact absurd h' e2
              · exact absurd (e1 ▸ hv) h'
              · rw [e1]; exact h'
          rw [(atGoal_iff ok hne hv).mp this]
        · rw [if_neg (show ¬ num k' = goalId from N.notGoal _ ck' hv), N.left _ ck' hv]
      rw [hs, htv]
      exact dist_step (hd _ _ hg (endCell_valid ok hne vk).1) (hd _ _ hg (endCell_valid ok hne hv).1) (cell_step ok hne fine ck ht vk hv)
  · have : ∀ s, (armPEnv c h num den).hGoal gl s = 0 := by
      intro s; simp only [armPEnv]; rw [if_pos (show gl ≠ goalId from e)]
    exact ⟨this gl, fun s t n _ => by rw [this s]; omega⟩

theorem motion_head {k : List Nat} {ks : List (List Nat)} (h : Motion c (k :: ks)) : Valid c k := by
  cases ks with
  | nil => exact h
  | cons _ _ => exact h.1

/-- a path of state IDs to the goal is a motion of the arm -/
theorem path_motion (ok : CfgOk c) (hne : c.links ≠ []) (N : ANumbering c num den) {gl : Nat} {p : List Nat} {n : Nat} (hp : PathCost ((armPEnv c h num den).succs gl) p n) :
    ∀ {a : Nat} {k : List Nat}, p.head? = some a → p.getLast? = some 1 → a ≠ 1 → den a = some k →
    ∃ ks, Motion c ks ∧ ks.head? = some k ∧ ks.length = p.length ∧ n + 1 = p.length ∧
      (∀ i s k, i + 1 < ks.length → p[i]? = some s → ks[i]? = some k → s ≠ 1 ∧ den s = some k) ∧
      ∃ l, ks.getLast? = some l ∧ (AtGoal c l ∨ (l = zero c ∧ c.startCoord ≠ zero c)) := by
  induction hp with
  | single s =>
    intro a k e1 e2 ha _
    cases e1; cases e2; exact absurd rfl ha
  | @cons s t cc n p hm hrest ih =>
    intro a k e1 e2 ha hd
    cases e1
    obtain ⟨_, rfl, k0, k', ds, ht, hv, hj⟩ := (succs_iff ok hne N).mp hm
    rw [hd] at ds; cases ds
    obtain ⟨_, ck, vk⟩ := N.right _ _ ha hd
    have ck' : Canon c k' := Turned.canon ok.vals ck ht
    rcases hj with ⟨rfl, hg⟩ | ⟨rfl, hg⟩
    · -- the goal has no successors
      cases hrest with
      | single => exact ⟨[k, k'], ⟨vk, ht, hv⟩, rfl, rfl, rfl, fun i s q hi e3 e4 => by
          have : i = 0 := by simp at hi; omega
          subst this; cases e3; cases e4; exact ⟨ha, hd⟩, k', rfl, hg⟩
      | cons hm' _ => exact absurd rfl ((succs_iff ok hne N).mp hm').1
    · obtain ⟨ks, h1, h2, h3, h4, hids, l, h5, h6⟩ := ih rfl (by simpa using e2) (N.notGoal _ ck' hv) (N.left _ ck' hv)
      cases ks with
      | nil => cases h2
      | cons q ks =>
        obtain rfl : q = k' := by simpa using h2
        refine ⟨k :: q :: ks, ⟨vk, ht, h1⟩, rfl, by simp only [List.length_cons] at *; omega, by simp only [List.length_cons] at *; omega, ?_, l, by simpa using h5, h6⟩
        intro i s1 k1 hi e3 e4
        cases i with
        | zero => cases e3; cases e4; exact ⟨ha, hd⟩
        | succ i => exact hids i s1 k1 (by simp only [List.length_cons] at *; omega) (by simpa using e3) (by simpa using e4)

/-- every motion to the goal gives a walk of state IDs, not longer -/
theorem motion_walk (ok : CfgOk c) (hne : c.links ≠ []) (N : ANumbering c num den) {gl : Nat} : ∀ (ks : List (List Nat)) {k k' l : List Nat} {a : Nat},
    Motion c (k :: k' :: ks) → a ≠ 1 → den a = some k → (k' :: ks).getLast? = some l → AtGoal c l →
    ∃ m, m ≤ ks.length + 1 ∧ Walk ((armPEnv c h num den).succs gl) a 1 m := by
  intro ks
  induction ks with
  | nil =>
    intro k k' l a hm ha hd hl hg
    cases hl
    have : Motion c [k, k'] := hm
    refine ⟨0 + 1, by simp, .snoc .nil ((succs_iff ok hne N).mpr ⟨ha, rfl, k, k', hd, this.2.1, motion_head this.2.2, .inl ⟨rfl, .inl hg⟩⟩)⟩
  | cons k2 ks ih =>
    intro k k' l a hm ha hd hl hg
    obtain ⟨vk, ht, hm'⟩ := hm
    have hv := motion_head hm'
    obtain ⟨_, ck, _⟩ := N.right _ _ ha hd
    have ck' : Canon c k' := Turned.canon ok.vals ck ht
    by_cases hgo : AtGoal c k' ∨ (k' = zero c ∧ c.startCoord ≠ zero c)
    · exact ⟨0 + 1, by simp, .snoc .nil ((succs_iff ok hne N).mpr ⟨ha, rfl, k, k', hd, ht, hv, .inl ⟨rfl, hgo⟩⟩)⟩
    · obtain ⟨m, h1, h2⟩ := ih hm' (N.notGoal _ ck' hv) (N.left _ ck' hv) (by simpa using hl) hg
      refine ⟨1 + m, by simp only [List.length_cons] at *; omega, ?_⟩
      exact walk_cons ((succs_iff ok hne N).mpr ⟨ha, rfl, k, k', hd, ht, hv, .inr ⟨rfl, hgo⟩⟩) h2

theorem start_walk (ok : CfgOk c) (hne : c.links ≠ []) (hs : Canon c c.startCoord) (N : ANumbering c num den) {gl : Nat} {ks : List (List Nat)} {l : List Nat}
    (hm : Motion c ks) (h0 : ks.head? = some c.startCoord) (h2 : 2 ≤ ks.length) (hl : ks.getLast? = some l) (hgl : AtGoal c l) :
    ∃ m, m ≤ ks.length - 1 ∧ Walk ((armPEnv c h num den).succs gl) 0 1 m := by
  match ks, h2 with
  | k :: k' :: ks, _ =>
    cases h0
    have vs : Valid c c.startCoord := motion_head hm
    have hd : den 0 = some c.startCoord := by rw [← N.start]; exact N.left _ hs vs
    obtain ⟨m, h1, w⟩ := motion_walk (h := h) (gl := gl) ok hne N ks hm (by decide) hd (by simpa using hl) hgl
    exact ⟨m, by simp only [List.length_cons]; omega, w⟩

theorem motion_last : ∀ {ks : List (List Nat)} {l : List Nat}, Motion c ks → ks.getLast? = some l → Valid c l := by
  intro ks
  induction ks with
  | nil => intro l _ h; cases h
  | cons k ks ih =>
    intro l hm hl
    cases ks with
    | nil => cases hl; exact hm
    | cons k' ks => exact ih hm.2.2 (by simpa using hl)

variable {D ie fe de : Nat} {fs : Bool} {ops : List Op} {st st' : ARA} {res : Result} {bs : List Nat}

/-- **C116** A forward ARA* planner on the robot arm, over arbitrary calls (all on this environment), with the start state 0 and the goal state 1 set last: when `replan`
succeeds, the returned states are a motion of the arm from the start configuration: all configurations are valid, each results from the one before by turning one joint
by one step, and the end effector ends in the goal cell, **or the last configuration is the one with all joints 0**.  The number of moves is at most the reported cost. -/
theorem path_correct (ok : CfgOk c) (hne : c.links ≠ []) (hs : Canon c c.startCoord) (vs : Valid c c.startCoord) (N : ANumbering c num den)
    (hok : ∀ op ∈ ops, OpOk op) (hsame : lastEnv (armPEnv c h num den) ops = armPEnv c h num den)
    (hrun : (init (armPEnv c h num den) true D ie fe de fs).run ops = some st) (ha : lastStart ops = some 0) (hb : lastGoal ops = some 1) (hbs : bs ≠ [])
    (hr : st.replan bs = .ok (st', res)) (hf : res.found = true) :
    ∃ ks, Motion c ks ∧ ks.head? = some c.startCoord ∧ ks.length = res.path.length ∧ ks.length ≤ res.cost + 1 ∧
      (∀ i s k, i + 1 < ks.length → res.path[i]? = some s → ks[i]? = some k → s ≠ 1 ∧ den s = some k) ∧
      ∃ l, ks.getLast? = some l ∧ (AtGoal c l ∨ (l = zero c ∧ c.startCoord ≠ zero c)) := by
  obtain ⟨⟨f1, f2⟩, _, n, hp, hn, _⟩ := ARAProps.replan_path_sound arm_envOk hok hrun ha hb hbs hr hf
  rw [hsame] at hp
  have hd : den 0 = some c.startCoord := by rw [← N.start]; exact N.left _ hs vs
  obtain ⟨ks, h1, h2, h3, h4, h5, h6⟩ := path_motion ok hne N hp f1 f2 (by decide) hd
  exact ⟨ks, h1, h2, h3, by omega, h5, h6⟩

/-- **C116** ... so it ends with the end effector in the goal cell if the configuration with all joints 0 is harmless -/
theorem path_ends_at_goal (hz : ZeroHarmless c) {ks : List (List Nat)} (hm : Motion c ks) {l : List Nat} (hl : ks.getLast? = some l)
    (h : AtGoal c l ∨ (l = zero c ∧ c.startCoord ≠ zero c)) : AtGoal c l := by
  rcases h with h | ⟨e1, e2⟩
  · exact h
  · have hv : Valid c l := motion_last hm hl
    rcases hz with h' | h' | h'
    · exact absurd h' e2
    · exact absurd (e1 ▸ hv) h'
    · rw [e1]; exact h'

/-- **C117** When `replan` reports the suboptimality bound eps = e / D and a motion of at least one move takes the end effector to the goal cell, a solution is found and
its cost is at most `E` times the number of moves of every such motion (`E ≥ eps` an integer; optimal for eps = 1). -/
theorem cost_bound (ok : CfgOk c) (hne : c.links ≠ []) (fine : FineSteps c) (hz : ZeroHarmless c) (hs : Canon c c.startCoord) (hg : InMap c (c.gx, c.gy))
    {junk : Nat → Nat → Nat} (hh : c.computeHeur junk = .ok h) (N : ANumbering c num den)
    (hok : ∀ op ∈ ops, OpOk op) (hsame : lastEnv (armPEnv c h num den) ops = armPEnv c h num den)
    (hrun : (init (armPEnv c h num den) true D ie fe de fs).run ops = some st) (ha : lastStart ops = some 0) (hb : lastGoal ops = some 1) (hbs : bs ≠ [])
    (hr : st.replan bs = .ok (st', res)) {e E : Nat} (hfe : res.finalEps = some e) (hE : 1 ≤ E) (heE : e ≤ E * D)
    {ks : List (List Nat)} {l : List Nat} (hm : Motion c ks) (h0 : ks.head? = some c.startCoord) (h2 : 2 ≤ ks.length) (hl : ks.getLast? = some l) (hgl : AtGoal c l) :
    res.found = true ∧ res.cost ≤ E * (ks.length - 1) := by
  obtain ⟨m, hml, w⟩ := start_walk (h := h) (gl := 1) ok hne hs N hm h0 h2 hl hgl
  have := ARAProps.replan_bound arm_envOk hok hrun ha hb hbs hr (by rw [hsame]; exact arm_heurOk ok hne fine hz hg hh N) hfe hE heE (by simp) (by rw [hsame]; exact w)
  exact ⟨this.1, this.2.trans (Nat.mul_le_mul_left E hml)⟩

/-- **C117** failure without a timeout: every motion of at least one move to the goal has at least INFINITECOST / E moves, where `E` bounds the requested eps -/
theorem failure_complete (ok : CfgOk c) (hne : c.links ≠ []) (fine : FineSteps c) (hz : ZeroHarmless c) (hs : Canon c c.startCoord) (hg : InMap c (c.gx, c.gy))
    {junk : Nat → Nat → Nat} (hh : c.computeHeur junk = .ok h) (N : ANumbering c num den)
    (hok : ∀ op ∈ ops, OpOk op) (hsame : lastEnv (armPEnv c h num den) ops = armPEnv c h num den)
    (hrun : (init (armPEnv c h num den) true D ie fe de fs).run ops = some st) (ha : lastStart ops = some 0) (hb : lastGoal ops = some 1) (hbs : bs ≠ [])
    (hr : st.replan bs = .ok (st', res)) {E : Nat} (hE : 1 ≤ E) (hreq : EpsReq E D ops) (hie : ie ≤ E * D) (hfe : fe ≤ E * D) (hnt : NoTimeout bs res.traces)
    (hf : res.found = false)
    {ks : List (List Nat)} {l : List Nat} (hm : Motion c ks) (h0 : ks.head? = some c.startCoord) (h2 : 2 ≤ ks.length) (hl : ks.getLast? = some l) (hgl : AtGoal c l) :
    INFINITECOST ≤ E * (ks.length - 1) := by
  obtain ⟨m, hml, w⟩ := start_walk (h := h) (gl := 1) ok hne hs N hm h0 h2 hl hgl
  have := ARAProps.replan_failure_complete arm_envOk hok hrun ha hb hbs hr (by rw [hsame]; exact arm_heurOk ok hne fine hz hg hh N) hE hreq hie hfe hnt hf (by simp)
    (by rw [hsame]; exact w)
  exact this.trans (Nat.mul_le_mul_left E hml)

end Sbpl.ArmARAProps
