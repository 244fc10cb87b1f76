import Verif.Model.Nav2DPlan
import Verif.Props.ARA
import Verif.Props.Nav2DMore
/-!
# ARA* on `EnvironmentNAV2D`, end to end (C32)
-/

namespace Sbpl.Nav2DProps
open Sbpl GridSpec GraphSpec PlannerSpec StateTable Nav2D

/-- `num` numbers the cells of the map injectively and `den` is its inverse -/
structure Numbering (W H : Int) (num : Int × Int → Nat) (den : Nat → Option (Int × Int)) : Prop where
  left : ∀ k, InMap W H k.1 k.2 → den (num k) = some k
  right : ∀ i k, den i = some k → num k = i ∧ InMap W H k.1 k.2

variable {c : NavCfg} {is16 : Bool} {num : Int × Int → Nat} {den : Nat → Option (Int × Int)}

theorem navCollect_eq {f : Act → Except EnvErr (Option ((Int × Int) × Nat))} {g : Act → Option ((Int × Int) × Nat)}
    {as : List Act} (h : ∀ a ∈ as, f a = .ok (g a)) :
    navCollect num f as = (as.filterMap g).map (fun p => (num p.1, p.2)) := by
  induction as with
  | nil => rfl
  | cons a as ih =>
    have ih' := ih (fun b hb => h b (by simp [hb]))
    unfold navCollect at *
    rw [List.filterMap_cons, List.filterMap_cons, h a (by simp)]
    cases g a with
    | none => simpa using ih'
    | some p => simp [ih']

theorem succs_mem (N : Numbering c.W c.H num den) {gl s t n : Nat} :
    (t, n) ∈ (navPEnv c num den).succs gl s ↔ s ≠ gl ∧ ∃ p q, den s = some p ∧ den t = some q ∧
      (q, n) ∈ c.acts.filterMap (c.succG p.1 p.2) := by
  simp only [navPEnv]
  by_cases hs : s = gl
  · simp [hs]
  · rw [if_neg hs]
    cases hp : den s with
    | none => simp
    | some p =>
      have hin := (N.right _ _ hp).2
      simp only
      rw [navCollect_eq (g := c.succG p.1 p.2) (fun a ha => NavCfg.succAct_eq (NavCfg.acts_sub a ha) hin)]
      constructor
      · intro hm
        obtain ⟨⟨q, n'⟩, hq, he⟩ := List.mem_map.mp hm
        simp only [Prod.mk.injEq] at he
        obtain ⟨rfl, rfl⟩ := he
        refine ⟨hs, p, q, rfl, ?_, hq⟩
        obtain ⟨a, ha, hh⟩ := List.mem_filterMap.mp hq
        apply N.left
        unfold NavCfg.succG at hh
        split at hh
        · next hc => cases hh; exact NavCfg.within_iff.mp hc.1
        · cases hh
      · rintro ⟨_, p', q, hp', hq, hm⟩
        cases hp'
        exact List.mem_map.mpr ⟨(q, n), hm, by rw [(N.right _ _ hq).1]⟩

theorem preds_mem (N : Numbering c.W c.H num den) {gl s t n : Nat} :
    (s, n) ∈ (navPEnv c num den).preds gl t ↔ ∃ p q, den t = some q ∧ den s = some p ∧ c.grid q.1 q.2 < c.obs ∧
      (p, n) ∈ c.acts.filterMap (c.predG q.1 q.2) := by
  simp only [navPEnv]
  cases hq : den t with
  | none => simp
  | some q =>
    have hin := (N.right _ _ hq).2
    simp only
    by_cases ho : c.grid q.1 q.2 ≥ c.obs
    · rw [if_pos ho]
      constructor
      · intro h; simp at h
      · rintro ⟨p, q', hq', _, h, _⟩; cases hq'; omega
    · rw [if_neg ho, navCollect_eq (g := c.predG q.1 q.2) (fun a ha => NavCfg.predAct_eq (NavCfg.acts_sub a ha) hin)]
      constructor
      · intro hm
        obtain ⟨⟨p, n'⟩, hp, he⟩ := List.mem_map.mp hm
        simp only [Prod.mk.injEq] at he
        obtain ⟨rfl, rfl⟩ := he
        refine ⟨p, q, rfl, ?_, by omega, hp⟩
        obtain ⟨a, ha, hh⟩ := List.mem_filterMap.mp hp
        apply N.left
        unfold NavCfg.predG at hh
        split at hh
        · next hc => cases hh; exact NavCfg.within_iff.mp hc.1
        · cases hh
      · rintro ⟨p, q', hq', hp, _, hm⟩
        cases hq'
        exact List.mem_map.mpr ⟨(p, n), hm, by rw [(N.right _ _ hp).1]⟩

theorem succs_edge (N : Numbering c.W c.H num den) (hd : c.dirs = dirsOf is16) {gl s t n : Nat} :
    (t, n) ∈ (navPEnv c num den).succs gl s ↔ s ≠ gl ∧ ∃ p q, den s = some p ∧ den t = some q ∧
      Edge c.W c.H c.grid c.obs is16 p q n := by
  rw [succs_mem N]
  constructor
  · rintro ⟨h, p, q, hp, hq, hm⟩; exact ⟨h, p, q, hp, hq, (succG_edge hd (N.right _ _ hp).2).mp hm⟩
  · rintro ⟨h, p, q, hp, hq, hm⟩; exact ⟨h, p, q, hp, hq, (succG_edge hd (N.right _ _ hp).2).mpr hm⟩

/-- an edge of `GetPreds` is a move of the table, at least as dear as it is long -/
theorem preds_act (N : Numbering c.W c.H num den) {gl s t n : Nat} (h : (s, n) ∈ (navPEnv c num den).preds gl t) :
    ∃ p q, den t = some q ∧ den s = some p ∧ ∃ a ∈ navActs, a.dx = p.1 - q.1 ∧ a.dy = p.2 - q.2 ∧ a.dist ≤ n := by
  obtain ⟨p, q, hq, hp, _, hm⟩ := (preds_mem N).mp h
  obtain ⟨a, ha, hh⟩ := List.mem_filterMap.mp hm
  refine ⟨p, q, hq, hp, a, NavCfg.acts_sub a ha, ?_⟩
  unfold NavCfg.predG at hh
  split at hh
  · cases hh
    refine ⟨by simp, by simp, Nat.le_mul_of_pos_left _ (by omega)⟩
  · cases hh

theorem nav_envOk (N : Numbering c.W c.H num den) (hd : c.dirs = dirsOf is16) : EnvOk (navPEnv c num den) := by
  refine ⟨?_, ?_, ?_, ?_, ?_⟩
  · intro gl gl' s h1 h2; simp [navPEnv, h1, h2]
  · intro gl s e h; simp [navPEnv] at h
  · intro gl s t n h
    obtain ⟨_, p, q, _, _, he⟩ := (succs_edge N hd).mp h
    have := (heur_edge he p).2.2
    omega
  · intro gl s t n h
    obtain ⟨p, q, _, _, a, ha, _, _, hn⟩ := preds_act N h
    have := (Act.facts a ha).2.2.1
    omega
  · intro gl s t n hne h
    obtain ⟨p, q, hq, hp, ho, hm⟩ := (preds_mem N).mp h
    refine (succs_mem N).mpr ⟨hne, p, q, hp, hq, ?_⟩
    exact predG_succG hd (N.right _ _ hq).2 hm

theorem nav_predsOk (N : Numbering c.W c.H num den) (hd : c.dirs = dirsOf is16) {a : Nat} {p : Int × Int}
    (ha : den a = some p) (hfree : c.grid p.1 p.2 < c.obs) : PredsOk (navPEnv c num den) a := by
  have free : ∀ gl s n, Walk ((navPEnv c num den).succs gl) a s n → ∀ q, den s = some q → c.grid q.1 q.2 < c.obs := by
    intro gl s n w
    cases w with
    | nil => intro q hq; rw [ha] at hq; cases hq; exact hfree
    | snoc _ hm =>
      intro q hq
      obtain ⟨_, p', q', hp', hq', hm⟩ := (succs_mem N).mp hm
      rw [hq] at hq'; cases hq'
      obtain ⟨a, _, hh⟩ := List.mem_filterMap.mp hm
      unfold NavCfg.succG at hh
      split at hh
      · next hc =>
        cases hh
        exact Nat.lt_of_le_of_lt ((NavCfg.foldMax_le.mp (Nat.le_refl _)).1) hc.2
      · cases hh
  intro gl s t n m w h
  obtain ⟨hne, p', q', hp', hq', hm⟩ := (succs_mem N).mp h
  have hf := free gl s m w p' hp'
  have := (predG_dual hd (N.right _ _ hp').2 (N.right _ _ hq').2).mpr ⟨hf, hm⟩
  exact (preds_mem N).mpr ⟨p', q', hq', hp', this.1, this.2.2⟩

/-- rounding of the inflated heuristic -/
theorem infl_drop {D e x y k : Nat} (hD : 0 < D) (h : x ≤ y + k) : D * (e * x / D) ≤ D * (e * y / D) + e * k + D := by
  have h1 : D * (e * x / D) ≤ e * x := Nat.mul_div_le ..
  have h2 : e * y < D * (e * y / D) + D := by
    have := Nat.lt_mul_div_succ (e * y) hD
    rw [Nat.mul_add, Nat.mul_one] at this
    exact this
  have h3 : e * x ≤ e * (y + k) := Nat.mul_le_mul_left e h
  rw [Nat.mul_add] at h3
  omega

/-- what the planner needs from the heuristic, for eps = e / D: factor (1001 e + D) / (1000 D) -/
theorem nav_heur (N : Numbering c.W c.H num den) (hd : c.dirs = dirsOf is16) {D e : Nat} (hD : 0 < D) (fwd : Bool) :
    HeurUpTo (navPEnv c num den) fwd D e (1001 * e + D) (1000 * D) := by
  have arith : ∀ {x y n : Nat}, x ≤ y + n + 1 → 1000 ≤ n →
      1000 * D * (e * x / D) ≤ 1000 * D * (e * y / D) + (1001 * e + D) * n := by
    intro x y n h hn
    have := infl_drop (D := D) (e := e) (x := x) (y := y) (k := n + 1) hD (by omega)
    have h3 : e * 1000 ≤ e * n := Nat.mul_le_mul_left e hn
    have h4 : D * 1000 ≤ D * n := Nat.mul_le_mul_left D hn
    generalize e * x / D = X at *
    generalize e * y / D = Y at *
    have e1 : 1000 * D * X = 1000 * (D * X) := by ring
    have e2 : 1000 * D * Y = 1000 * (D * Y) := by ring
    have e3 : (1001 * e + D) * n = 1001 * (e * n) + D * n := by ring
    have e4 : e * (n + 1) = e * n + e := by ring
    rw [e1, e2, e3]
    rw [e4] at this
    omega
  unfold HeurUpTo
  cases fwd with
  | true =>
    simp only [if_true]
    intro gl
    constructor
    · simp only [navPEnv]; cases den gl <;> simp [eucl]
    · intro s t n h
      obtain ⟨_, p, q, hp, hq, he⟩ := (succs_edge N hd).mp h
      simp only [navPEnv, hp, hq]
      cases den gl with
      | none => simp
      | some g =>
        have := heur_edge he g
        exact arith this.1 this.2.2
  | false =>
    simp only [Bool.false_eq_true, if_false]
    intro gl s0
    constructor
    · simp only [navPEnv]; cases den s0 <;> simp [eucl]
    · intro t s n h
      obtain ⟨p, q, hq, hp, a, ha, e1, e2, hn⟩ := preds_act N h
      simp only [navPEnv, hp, hq]
      cases den s0 with
      | none => simp
      | some g =>
        have := heur_act ha (s := q) (t := p) e1 e2 g n hn
        simp only [eucl_comm g]
        exact arith this.1 this.2.2

/-- for eps = 1: factor 1415 / 1414 -/
theorem nav_heur_one (N : Numbering c.W c.H num den) (hd : c.dirs = dirsOf is16) {D : Nat} (hD : 0 < D) (fwd : Bool) :
    HeurUpTo (navPEnv c num den) fwd D D 1415 1414 := by
  unfold HeurUpTo UpTo
  simp only [Nat.mul_div_cancel_left _ hD]
  cases fwd with
  | true =>
    simp only [if_true]
    intro gl
    constructor
    · simp only [navPEnv]; cases den gl <;> simp [eucl]
    · intro s t n h
      obtain ⟨_, p, q, hp, hq, he⟩ := (succs_edge N hd).mp h
      simp only [navPEnv, hp, hq]
      cases den gl with
      | none => simp
      | some g => exact (heur_edge he g).2.1
  | false =>
    simp only [Bool.false_eq_true, if_false]
    intro gl s0
    constructor
    · simp only [navPEnv]; cases den s0 <;> simp [eucl]
    · intro t s n h
      obtain ⟨p, q, hq, hp, a, ha, e1, e2, hn⟩ := preds_act N h
      simp only [navPEnv, hp, hq]
      cases den s0 with
      | none => simp
      | some g =>
        simp only [eucl_comm g]
        exact (heur_act ha (s := q) (t := p) e1 e2 g n hn).2.1

/-- a walk over the map, cut where it first reaches the goal, is a walk of the environment -/
theorem walk_of_gridWalk (N : Numbering c.W c.H num den) (hd : c.dirs = dirsOf is16) {a b : Nat} {p q : Int × Int}
    (ha : den a = some p) (hb : den b = some q) {n : Nat} (w : GridWalk c.W c.H c.grid c.obs is16 p q n) :
    ∃ n', n' ≤ n ∧ Walk ((navPEnv c num den).succs b) a b n' := by
  have key : ∀ t n, GridWalk c.W c.H c.grid c.obs is16 p t n →
      (∃ n', n' ≤ n ∧ Walk ((navPEnv c num den).succs b) a b n') ∨
      (∃ j, den j = some t ∧ Walk ((navPEnv c num den).succs b) a j n) := by
    intro t n w
    induction w with
    | nil => right; exact ⟨a, ha, .nil⟩
    | @snoc r t n m w he ih =>
      rcases ih with ⟨n', h1, h2⟩ | ⟨j, hj, hw⟩
      · left; exact ⟨n', by omega, h2⟩
      · by_cases hjb : j = b
        · subst hjb; left; exact ⟨n, by omega, hw⟩
        · right
          have hin := (N.right _ _ hj).2
          have ht : InMap c.W c.H t.1 t.2 := by
            have := (succG_edge hd hin).mpr he
            obtain ⟨a', _, hh⟩ := List.mem_filterMap.mp this
            unfold NavCfg.succG at hh
            split at hh
            · next hc => cases hh; exact NavCfg.within_iff.mp hc.1
            · cases hh
          exact ⟨num t, N.left t ht, hw.snoc ((succs_edge N hd).mpr ⟨hjb, r, t, hj, N.left t ht, he⟩)⟩
  rcases key q n w with h | ⟨j, hj, hw⟩
  · exact h
  · have : j = b := by rw [← (N.right _ _ hj).1, (N.right _ _ hb).1]
    subst this
    exact ⟨n, Nat.le_refl _, hw⟩

/-- a path of IDs is a walk over the map -/
theorem gridWalk_of_path (N : Numbering c.W c.H num den) (hd : c.dirs = dirsOf is16) {gl : Nat} {l : List Nat} {n : Nat}
    (h : PathCost ((navPEnv c num den).succs gl) l n) : ∀ {a b : Nat} {p : Int × Int}, l.head? = some a → l.getLast? = some b →
      den a = some p → ∃ q, den b = some q ∧ GridWalk c.W c.H c.grid c.obs is16 p q n := by
  have cons : ∀ {p r q : Int × Int} {m k : Nat}, Edge c.W c.H c.grid c.obs is16 p r m →
      GridWalk c.W c.H c.grid c.obs is16 r q k → GridWalk c.W c.H c.grid c.obs is16 p q (m + k) := by
    intro p r q m k he w
    induction w with
    | nil => have := GridWalk.snoc (.nil) he; simpa using this
    | snoc _ h ih => rw [← Nat.add_assoc]; exact ih.snoc h
  induction h with
  | single s =>
    intro a b p h1 h2 hp
    simp at h1 h2
    subst h1; subst h2
    exact ⟨p, hp, .nil⟩
  | @cons s t m n l hm hl ih =>
    intro a b p h1 h2 hp
    simp at h1
    subst h1
    obtain ⟨_, p', r, hp', hr, he⟩ := (succs_edge N hd).mp hm
    rw [hp] at hp'; cases hp'
    obtain ⟨q, hq, w⟩ := ih (a := t) (b := b) (p := r) rfl (by rw [List.getLast?_cons_cons] at h2; exact h2) hr
    exact ⟨q, hq, cons he w⟩

section
variable {env0 : PEnv} {fwd : Bool} {D ie fe de : Nat} {fs : Bool} {ops : List ARA.Op} {st st' : ARA} {bs : List Nat}
  {res : ARA.Result} {a b : Nat} {p q : Int × Int}

/-- **C32a** ARA* on `EnvironmentNAV2D`, any history, forward or backward: a reported path decodes to a walk over
passable straight moves of the current map from the start cell to the goal cell, of cost at most the reported cost. -/
theorem ara_nav2d_path (he : EnvOk env0) (hok : ∀ op ∈ ops, OpOk op)
    (hrun : (ARA.init env0 fwd D ie fe de fs).run ops = some st)
    (ha : lastStart ops = some a) (hb : lastGoal ops = some b) (hbs : bs ≠ [])
    (hr : st.replan bs = .ok (st', res)) (hf : res.found = true)
    (N : Numbering c.W c.H num den) (hd : c.dirs = dirsOf is16) (hmap : lastEnv env0 ops = navPEnv c num den)
    (hp : den a = some p) (hq : den b = some q) :
    ∃ n, GridWalk c.W c.H c.grid c.obs is16 p q n ∧ n ≤ res.cost := by
  obtain ⟨⟨h1, h2⟩, _, n, hpc, hn, _⟩ := ARAProps.replan_path_sound he hok hrun ha hb hbs hr hf
  rw [hmap] at hpc
  obtain ⟨q', hq', w⟩ := gridWalk_of_path N hd hpc h1 h2 hp
  rw [hq] at hq'; cases hq'
  exact ⟨n, w, hn⟩

/-- **C32b** When `replan` reports eps = e / D (≥ 1), the start cell is not an obstacle or the search is forward, and some
walk of cost `n` over the map leads from start to goal, then a path is found, of cost at most
(1.001 * eps + 0.001) * n; for eps = 1 at most (1415 / 1414) * n. -/
theorem ara_nav2d_bound (he : EnvOk env0) (hok : ∀ op ∈ ops, OpOk op)
    (hrun : (ARA.init env0 fwd D ie fe de fs).run ops = some st)
    (ha : lastStart ops = some a) (hb : lastGoal ops = some b) (hbs : bs ≠ [])
    (hr : st.replan bs = .ok (st', res)) {e n : Nat} (hfe : res.finalEps = some e) (hD : 0 < D) (he1 : D ≤ e)
    (N : Numbering c.W c.H num den) (hd : c.dirs = dirsOf is16) (hmap : lastEnv env0 ops = navPEnv c num den)
    (hp : den a = some p) (hq : den b = some q) (hfree : fwd = false → c.grid p.1 p.2 < c.obs)
    (w : GridWalk c.W c.H c.grid c.obs is16 p q n) :
    res.found = true ∧ 1000 * D * res.cost ≤ (1001 * e + D) * n ∧ (e = D → 1414 * res.cost ≤ 1415 * n) := by
  obtain ⟨n', hn, w'⟩ := walk_of_gridWalk N hd hp hq w
  have hP : fwd = false → PredsOk (lastEnv env0 ops) a := by
    intro hf; rw [hmap]; exact nav_predsOk N hd hp (hfree hf)
  have r1 := ARAProps.replan_bound_general he hok hrun ha hb hbs hr hfe (by rw [hmap]; exact nav_heur N hd hD fwd)
    (by nlinarith) hP (by rw [hmap]; exact w')
  refine ⟨r1.1, Nat.le_trans r1.2 (Nat.mul_le_mul_left _ hn), ?_⟩
  rintro rfl
  have r2 := ARAProps.replan_bound_general he hok hrun ha hb hbs hr hfe (by rw [hmap]; exact nav_heur_one N hd hD fwd)
    (by decide) hP (by rw [hmap]; exact w')
  exact Nat.le_trans r2.2 (Nat.mul_le_mul_left _ hn)

end

/-- **the numbering in hindsight** If `num` agrees with the ID table after the call, `GetSuccs` of the stateful model
returns exactly the list of `navPEnv`. -/
theorem navPEnv_succs {st st' : Nav2D} {id : Nat} {l : List (Nat × Nat)} {p : Int × Int} (i : NInv st)
    (h : st.getSuccs id = .ok (st', l)) (hp : st.getCoord id = .ok p) (hin : InMap st.cfg.W st.cfg.H p.1 p.2)
    (hden : den id = some p) (hnum : ∀ j k, st'.getCoord j = .ok k → num k = j) :
    l = (navPEnv st.cfg num den).succs st.goalId id := by
  simp only [navPEnv]
  by_cases hg : id = st.goalId
  · rw [if_pos hg]
    unfold getSuccs at h
    rw [if_pos hg] at h
    cases h; rfl
  · rw [if_neg hg, hden]
    obtain ⟨s', l', h1, _, _, h4⟩ := getSuccs_spec i hg (getCoord_ok.mp hp) hin
    rw [h] at h1; cases h1
    simp only
    rw [navCollect_eq (g := st.cfg.succG p.1 p.2) (fun a ha => NavCfg.succAct_eq (NavCfg.acts_sub a ha) hin)]
    generalize st.cfg.acts.filterMap (st.cfg.succG p.1 p.2) = r at h4
    clear h
    induction r generalizing l with
    | nil => simp at h4; simp [h4]
    | cons y r ih =>
      cases l with
      | nil => simp at h4
      | cons x l =>
        simp only [List.map_cons, List.cons.injEq, Prod.mk.injEq] at h4
        rw [List.map_cons, ← ih h4.2]
        congr 1
        exact Prod.ext (hnum _ _ (getCoord_ok.mpr h4.1.1)).symm h4.1.2

/-! ### Concrete case -/

/-- row-major numbering -/
def rowNum (W : Int) (k : Int × Int) : Nat := (k.1 + k.2 * W).toNat
def rowDen (W H : Int) (i : Nat) : Option (Int × Int) :=
  if (i : Int) < W * H then some ((i : Int) % W, (i : Int) / W) else none

theorem row_numbering {W H : Int} (hW : 0 < W) : Numbering W H (rowNum W) (rowDen W H) := by
  constructor
  · rintro ⟨x, y⟩ ⟨h1, h2, h3, h4⟩
    simp only at h1 h2 h3 h4
    have hnn : 0 ≤ x + y * W := by nlinarith
    have hcast : ((x + y * W).toNat : Int) = x + y * W := Int.toNat_of_nonneg hnn
    unfold rowDen rowNum
    simp only
    rw [hcast, if_pos (by nlinarith)]
    congr 1
    refine Prod.ext ?_ ?_
    · show (x + y * W) % W = x
      rw [Int.add_mul_emod_self_right]
      exact Int.emod_eq_of_lt h1 h2
    · show (x + y * W) / W = y
      rw [Int.add_mul_ediv_right _ _ (by omega)]
      rw [Int.ediv_eq_zero_of_lt h1 h2]; omega
  · intro i k h
    unfold rowDen at h
    split at h
    · next hlt =>
      cases h
      have h1 := Int.emod_nonneg (i : Int) (show W ≠ 0 by omega)
      have h2 := Int.emod_lt_of_pos (i : Int) hW
      have h3 : 0 ≤ (i : Int) / W := Int.ediv_nonneg (by omega) (by omega)
      have h4 : (i : Int) / W < H := by
        apply Int.ediv_lt_of_lt_mul hW; rw [Int.mul_comm]; exact hlt
      have h5 : (i : Int) % W + (i : Int) / W * W = i := by rw [Int.mul_comm]; exact Int.emod_add_mul_ediv ..
      refine ⟨?_, h1, h2, h3, h4⟩
      unfold rowNum
      simp only
      rw [h5]; simp
    · cases h

/-- a 3 × 2 map -/
def miniCfg : NavCfg := ⟨3, 2, 1, fun x y => if x = 1 ∧ y = 0 then 1 else 0, 8, (0, 0), (2, 0)⟩
def miniEnv : PEnv := navPEnv miniCfg (rowNum 3) (rowDen 3 2)

/-- the hypotheses of C32 are met: planning around the obstacle (1, 0) -/
example : ∃ st st' res, (ARA.init miniEnv true 1 1 1 1 true).run [.setGoal 2, .setStart 0] = some st ∧
    st.replan [9] = .ok (st', res) ∧ res.found = true ∧ res.finalEps = some 1 ∧ res.path = [0, 3, 4, 5, 2] ∧
    EnvOk miniEnv ∧ rowDen 3 2 0 = some (0, 0) ∧ rowDen 3 2 2 = some (2, 0) := by
  obtain ⟨st, st', h1, h2⟩ := ARAProps.planRun_some (by decide +kernel :
    ARAProps.planRun miniEnv true 1 1 1 1 true [.setGoal 2, .setStart 0] [9] = some ⟨true, [0, 3, 4, 5, 2], 4000, some 1, [[0, 3, 4, 5]]⟩)
  exact ⟨st, st', _, h1, h2, rfl, rfl, rfl, nav_envOk (is16 := false) (row_numbering (by decide)) rfl, by decide, by decide⟩

end Sbpl.Nav2DProps
