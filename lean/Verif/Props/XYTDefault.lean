import Verif.Model.XYTDefault
import Verif.Spec.XYTDefault
import Verif.Props.XYT
/-!
# The (x, y, theta) lattice without motion primitives

The environment is the one with the primitives `XDfl.prims` (`default_init`), so that everything proved about environments with primitives holds for it (`default_hist`).
-/

namespace Sbpl.XDflProps
open Sbpl XSpec XEnv XCfg XDfl UtilsSpec

variable {s : Setup} {vel tt : ℚ}

/-! ## The table of actions -/

theorem mkAct_prim {T : Nat} {cs : ℚ} {foot : ℚ × ℚ × ℚ → List (Int × Int)} {t : Int} {i : Nat} :
    mkAct cs foot i (prim T cs vel tt t i) = act T cs vel tt foot t i := by
  unfold mkAct act prim MPrim.poses
  simp only [Option.getD_some]
  congr 1
  unfold motionCells
  simp only [List.flatMap_cons, List.flatMap_nil, List.append_nil, List.filter_append]
  rw [List.filter_eq_nil_iff.mpr (by intro a ha; simp [ha]), List.nil_append]

theorem filter_prims {T : Nat} {cs : ℚ} (t : Int) :
    (prims T cs vel tt).filter (fun m => decide (m.startTheta = t)) = if 0 ≤ t ∧ t < T then (List.range 5).map (prim T cs vel tt t) else [] := by
  have one : ∀ u : Nat, ((List.range 5).map (prim T cs vel tt (u : Int))).filter (fun m => decide (m.startTheta = t)) =
      if (u : Int) = t then (List.range 5).map (prim T cs vel tt t) else [] := by
    intro u
    split_ifs with h
    · subst h
      rw [List.filter_eq_self]
      intro m hm
      obtain ⟨i, -, rfl⟩ := List.mem_map.mp hm
      simp [prim]
    · rw [List.filter_eq_nil_iff]
      intro m hm
      obtain ⟨i, -, rfl⟩ := List.mem_map.mp hm
      show ¬ decide ((u : Int) = t) = true
      simpa using h
  have gen : ∀ n : Nat, ((List.range n).flatMap (fun (u : Nat) => (List.range 5).map (prim T cs vel tt (u : Int)))).filter (fun m => decide (m.startTheta = t)) =
      if 0 ≤ t ∧ t < n then (List.range 5).map (prim T cs vel tt t) else [] := by
    intro n
    induction n with
    | zero => rw [if_neg (by omega)]; rfl
    | succ n ih =>
      rw [List.range_succ (n := n), List.flatMap_append, List.filter_append, ih, List.flatMap_cons, List.flatMap_nil, List.append_nil, one]
      by_cases h : (n : Int) = t
      · rw [if_neg (by omega), if_pos h, if_pos (by omega), List.nil_append]
      · rw [if_neg h, List.append_nil]
        by_cases h2 : 0 ≤ t ∧ t < n
        · rw [if_pos h2, if_pos (by push_cast; omega)]
        · rw [if_neg h2, if_neg (by push_cast; omega)]
  exact gen T

theorem acts_eq {T : Nat} {cs : ℚ} {foot : ℚ × ℚ × ℚ → List (Int × Int)} : actsFor cs foot (prims T cs vel tt) = acts T cs vel tt foot := by
  funext t
  unfold actsFor XDfl.acts
  rw [filter_prims]
  split_ifs
  · apply List.ext_getElem
    · simp
    · intro i h1 h2
      rw [List.getElem_mapIdx, List.getElem_map, List.getElem_map, List.getElem_range, mkAct_prim]
  · rfl

theorem prims_length {T : Nat} {cs : ℚ} : (prims T cs vel tt).length = 5 * T := by
  unfold prims
  rw [List.length_flatMap]
  simp only [List.length_map, List.length_range, List.map_const', List.sum_replicate, smul_eq_mul]
  omega

theorem foldl_max_const : ∀ (l : List Nat) (a : Nat), (∀ x ∈ l, x = a) → l.foldl max a = a
  | [], _, _ => rfl
  | x :: l, a, h => by
    rw [List.foldl_cons, h x (by simp), Nat.max_self]
    exact foldl_max_const l a (fun y hy => h y (by simp [hy]))

theorem precompute_eq {T : Nat} {cs : ℚ} {foot : ℚ × ℚ × ℚ → List (Int × Int)} (hT : 0 < T) :
    XEnv.precompute T cs foot (prims T cs vel tt) = XDfl.precompute T cs vel tt foot := by
  have len : ∀ t : Nat, t < T → (acts T cs vel tt foot t).length = 5 := by
    intro t ht
    unfold XDfl.acts
    rw [if_pos (by omega)]
    simp
  have hdiv : 5 * T / T = 5 := Nat.mul_div_cancel _ hT
  unfold XEnv.precompute XDfl.precompute
  rw [acts_eq, prims_length, hdiv, if_neg (by omega), if_neg (by simp)]
  have a1 : (List.range T).any (fun (t : Nat) => decide ((acts T cs vel tt foot t).length > 5)) = false := by
    rw [List.any_eq_false]
    intro t ht
    rw [len t (List.mem_range.mp ht)]; decide
  have a2 : (List.range T).any (fun (t : Nat) => decide ((acts T cs vel tt foot t).length < 5)) = false := by
    rw [List.any_eq_false]
    intro t ht
    rw [len t (List.mem_range.mp ht)]; decide
  have a3 : ((List.range T).map (fun (t : Nat) => (acts T cs vel tt foot t).length)).foldl max 0 = 5 := by
    obtain ⟨n, rfl⟩ : ∃ n, T = n + 1 := ⟨T - 1, by omega⟩
    have all : ∀ x ∈ (List.range (n + 1)).map (fun (t : Nat) => (acts (n + 1) cs vel tt foot t).length), x = 5 := by
      intro x hx
      obtain ⟨t, ht, rfl⟩ := List.mem_map.mp hx
      exact len t (List.mem_range.mp ht)
    rw [List.range_succ_eq_map, List.map_cons] at all ⊢
    rw [List.foldl_cons, Nat.zero_max, all _ List.mem_cons_self]
    exact foldl_max_const _ _ (fun x hx => all x (List.mem_cons_of_mem _ hx))
  rw [a1, a2, a3]
  simp only [Bool.false_eq_true, if_false]
  rw [if_neg (show ¬ 5 * T ≠ T * 5 by omega)]

/-- **C179** An environment initialised without motion primitives is the environment with the primitives `XDfl.prims`: the same tables, states and errors. -/
theorem default_init : XDfl.init s vel tt = XEnv.init (setup s vel tt) := by
  unfold XDfl.init XEnv.init
  unfold setup
  dsimp only
  by_cases h : ¬(0 ≤ s.start.1 ∧ s.start.1 < s.W ∧ 0 ≤ s.start.2.1 ∧ s.start.2.1 < s.H ∧ 0 ≤ s.start.2.2 ∧ s.start.2.2 < s.T)
  · rw [if_pos h, if_pos h]
  · rw [if_neg h, if_neg h]
    have hT : 0 < s.T := by rw [not_not] at h; omega
    rw [precompute_eq hT]
    rfl

/-! ## The moves -/

theorem roundDir_step {v : ℝ} (h1 : -1 ≤ v) (h2 : v ≤ 1) : StepOf v (roundDir v) := by
  unfold StepOf roundDir truncR
  have fl : ∀ x : ℝ, 1 ≤ x → x < 2 → ⌊x⌋ = 1 := fun x a b => Int.floor_eq_iff.mpr ⟨by push_cast; linarith, by push_cast; linarith⟩
  have f0 : ∀ x : ℝ, 0 ≤ x → x < 1 → ⌊x⌋ = 0 := fun x a b => Int.floor_eq_iff.mpr ⟨by push_cast; linarith, by push_cast; linarith⟩
  have cl : ∀ x : ℝ, -2 < x → x ≤ -1 → ⌈x⌉ = -1 := fun x a b => Int.ceil_eq_iff.mpr ⟨by push_cast; linarith, by push_cast; linarith⟩
  have c0 : ∀ x : ℝ, -1 < x → x ≤ 0 → ⌈x⌉ = 0 := fun x a b => Int.ceil_eq_iff.mpr ⟨by push_cast; linarith, by push_cast; linarith⟩
  by_cases hv : v > 0
  · rw [if_pos hv, if_pos (by linarith)]
    exact ⟨fun h => fl _ (by linarith) (by linarith), fun h => by linarith, fun _ h => f0 _ (by linarith) (by linarith)⟩
  · rw [if_neg hv, if_neg (by linarith)]
    exact ⟨fun h => by linarith, fun h => cl _ (by linarith) (by linarith), fun h _ => c0 _ (by linarith) (by linarith)⟩

theorem stepOf_unique {v : ℝ} {d d' : Int} (h : StepOf v d) (h' : StepOf v d') : d = d' := by
  obtain ⟨a1, a2, a3⟩ := h
  obtain ⟨b1, b2, b3⟩ := h'
  by_cases c1 : 1 / 2 ≤ v
  · rw [a1 c1, b1 c1]
  · by_cases c2 : v ≤ -(1 / 2)
    · rw [a2 c2, b2 c2]
    · rw [a3 (by linarith) (by linarith), b3 (by linarith) (by linarith)]

theorem stepOf_range {v : ℝ} {d : Int} (h : StepOf v d) : -1 ≤ d ∧ d ≤ 1 := by
  obtain ⟨a1, a2, a3⟩ := h
  by_cases c1 : 1 / 2 ≤ v
  · rw [a1 c1]; decide
  · by_cases c2 : v ≤ -(1 / 2)
    · rw [a2 c2]; decide
    · rw [a3 (by linarith) (by linarith)]; decide

theorem move_step {T : Nat} {t : Int} {i : Nat} (hi : i < 3) : StepTo (endAngle T t i) (dX T t i, dY T t i) := by
  unfold dX dY
  rw [if_pos hi, if_pos hi]
  exact ⟨roundDir_step (Real.neg_one_le_cos _) (Real.cos_le_one _), roundDir_step (Real.neg_one_le_sin _) (Real.sin_le_one _)⟩

theorem move_range {T : Nat} {t : Int} {i : Nat} : (-1 ≤ dX T t i ∧ dX T t i ≤ 1) ∧ -1 ≤ dY T t i ∧ dY T t i ≤ 1 := by
  by_cases hi : i < 3
  · have := move_step (T := T) (t := t) hi
    exact ⟨stepOf_range this.1, stepOf_range this.2⟩
  · unfold dX dY
    rw [if_neg hi, if_neg hi]
    decide

/-- the new heading of an action that moves -/
theorem end_go {T : Nat} (hT : 2 ≤ T) {t : Int} (t0 : 0 ≤ t) (tT : t < T) {i : Nat} (hi : i < 3) :
    endTheta T t i = if t + ((i : Int) - 1) = T then 0 else t + ((i : Int) - 1) := by
  unfold endTheta
  rw [if_pos hi, show t + (i : Int) - 1 = t + ((i : Int) - 1) by omega]
  split_ifs with h
  · rw [h]; exact Int.tmod_self
  · by_cases h0 : 0 ≤ t + ((i : Int) - 1)
    · rw [Int.tmod_eq_emod_of_nonneg h0, Int.emod_eq_of_lt h0 (by omega)]
    · have : t + ((i : Int) - 1) = -1 := by omega
      rw [this, Int.neg_tmod, Int.tmod_eq_emod_of_nonneg (by decide), Int.emod_eq_of_lt (by decide) (by omega)]

/-- the new heading of an action that turns in place -/
theorem end_turn {T : Nat} (hT : 2 ≤ T) {t : Int} (t0 : 0 ≤ t) (tT : t < T) :
    IsResidue (t + -1) T (endTheta T t 3) ∧ IsResidue (t + 1) T (endTheta T t 4) := by
  unfold endTheta IsResidue
  simp only [show ¬ (3 < 3) by decide, show ¬ (4 < 3) by decide, show ¬ (4 = 3) by decide, if_true, if_false]
  constructor
  · split_ifs with h
    · exact ⟨by omega, by omega, -1, by omega⟩
    · exact ⟨by omega, by omega, 0, by omega⟩
  · rw [Int.tmod_eq_emod_of_nonneg (by omega)]
    by_cases h : t + 1 = T
    · rw [h, Int.emod_self]; exact ⟨by omega, by omega, 1, by omega⟩
    · rw [Int.emod_eq_of_lt (by omega) (by omega)]; exact ⟨by omega, by omega, 0, by omega⟩

theorem end_range {T : Nat} (hT : 1 ≤ T) {t : Int} (t0 : 0 ≤ t) (tT : t < T) (i : Nat) : -1 ≤ endTheta T t i ∧ endTheta T t i < T := by
  unfold endTheta
  split_ifs
  · by_cases h0 : 0 ≤ t + (i : Int) - 1
    · rw [Int.tmod_eq_emod_of_nonneg h0]
      have := Int.emod_nonneg (t + (i : Int) - 1) (show (T : Int) ≠ 0 by omega)
      have := Int.emod_lt_of_pos (t + (i : Int) - 1) (show (0 : Int) < T by omega)
      omega
    · have : t + (i : Int) - 1 = -1 := by omega
      rw [this, Int.neg_tmod, Int.tmod_eq_emod_of_nonneg (by decide)]
      have h1 := Int.emod_nonneg 1 (show (T : Int) ≠ 0 by omega)
      have h2 : (1 : Int) % T ≤ 1 := by
        by_cases hT1 : T = 1
        · subst hT1; decide
        · rw [Int.emod_eq_of_lt (by decide) (by omega)]
      omega
  · omega
  · omega
  · rw [Int.tmod_eq_emod_of_nonneg (by omega)]
    have := Int.emod_nonneg (t + 1) (show (T : Int) ≠ 0 by omega)
    have := Int.emod_lt_of_pos (t + 1) (show (0 : Int) < T by omega)
    omega

/-- the primitives -/
theorem mem_prims {T : Nat} {cs : ℚ} {m : MPrim} : m ∈ prims T cs vel tt ↔ ∃ (t : Int) (i : Nat), 0 ≤ t ∧ t < T ∧ i < 5 ∧ m = prim T cs vel tt t i := by
  unfold prims
  rw [List.mem_flatMap]
  constructor
  · rintro ⟨t, ht, h⟩
    obtain ⟨i, hi, rfl⟩ := List.mem_map.mp h
    exact ⟨t, i, by omega, by exact_mod_cast List.mem_range.mp ht, List.mem_range.mp hi, rfl⟩
  · rintro ⟨t, i, h0, h1, h2, rfl⟩
    obtain ⟨u, rfl⟩ := Int.eq_ofNat_of_zero_le h0
    exact ⟨u, List.mem_range.mpr (by omega), List.mem_map.mpr ⟨i, List.mem_range.mpr h2, rfl⟩⟩

/-- **C179** The set-up meets the conditions of the environments with primitives, whatever the map, footprint and speeds, for up to 128 headings. -/
theorem setup_ok (h1 : 1 ≤ s.T) (h2 : s.T ≤ 128) : SetupOk (setup s vel tt) := by
  refine ⟨h2, ?_⟩
  intro m hm
  obtain ⟨t, i, t0, tT, -, rfl⟩ := mem_prims.mp hm
  obtain ⟨⟨a1, a2⟩, a3, a4⟩ := move_range (T := s.T) (t := t) (i := i)
  have := end_range h1 t0 tT i
  simp only [prim]
  omega

theorem end_angle {T : Nat} (hT : 1 ≤ T) (h2 : T ≤ 128) {t : Int} (t0 : 0 ≤ t) (tT : t < T) (i : Nat) :
    endAngle T t i = endTheta T t i * (2 * Utils.PI_CONST / T) := by
  have := end_range hT t0 tT i
  unfold endAngle Utils.discTheta2Cont
  rw [toChar_id (by omega) (by omega)]
  push_cast
  rfl

theorem nat_le_ext {a b : Nat} (h : ∀ n : Nat, a ≤ n ↔ b ≤ n) : a = b := Nat.le_antisymm ((h b).mpr (Nat.le_refl _)) ((h a).mp (Nat.le_refl _))
theorem nat_ge_ext {a b : Nat} (h : ∀ n : Nat, n ≤ a ↔ n ≤ b) : a = b := Nat.le_antisymm ((h a).mp (Nat.le_refl _)) ((h b).mpr (Nat.le_refl _))

theorem cost_go {T : Nat} {cs : ℚ} {t : Int} {i : Nat} (hi : i < 3) (n : Nat) :
    cost T cs vel tt t i ≤ n ↔ ((1000 * cs / vel : ℚ) : ℝ) * Real.sqrt ((dX T t i * dX T t i + dY T t i * dY T t i : Int) : ℝ) ≤ n := by
  unfold cost
  rw [if_pos hi, Int.toNat_le, Int.ceil_le]
  push_cast
  rfl

theorem cost_turn {T : Nat} {cs : ℚ} {t : Int} {i : Nat} (hi : ¬ i < 3) (n : Nat) :
    n ≤ cost T cs vel tt t i ↔ (n = 0 ∨ (n : ℚ) ≤ 1000 * tt) := by
  unfold cost Utils.trunc
  rw [if_neg hi]
  split_ifs with h
  · rw [Int.le_toNat (Int.floor_nonneg.mpr h), Int.le_floor]
    push_cast
    constructor
    · exact fun h => .inr h
    · rintro (h0 | h0)
      · subst h0; simpa using h
      · exact h0
  · have h' : 1000 * tt < 0 := not_le.mp h
    have : ⌈1000 * tt⌉ ≤ 0 := Int.ceil_le.mpr (by push_cast; linarith)
    rw [Int.toNat_of_nonpos this]
    constructor
    · intro h0; exact .inl (by omega)
    · rintro (h0 | h0)
      · omega
      · have : (0 : ℚ) ≤ n := by positivity
        linarith

/-- the five actions of a heading are the moves of the specification -/
theorem dmove_iff (h1 : 2 ≤ s.T) (h2 : s.T ≤ 128) {t : Int} (t0 : 0 ≤ t) (tT : t < s.T) {d : Int × Int} {e : Int} {b : Nat} :
    DMove s vel tt t d e b ↔ ∃ i < 5, d = (dX s.T t i, dY s.T t i) ∧ e = endTheta s.T t i ∧ b = cost s.T s.cs vel tt t i := by
  have ang := fun i => end_angle (by omega) h2 t0 tT i
  constructor
  · rintro (⟨k, k1, k2, he, hd, hb⟩ | ⟨k, hk, he, hb⟩)
    · obtain ⟨i, rfl⟩ : ∃ i : Nat, k = (i : Int) - 1 := ⟨(k + 1).toNat, by omega⟩
      have hi : i < 3 := by omega
      have ee : e = endTheta s.T t i := by rw [end_go h1 t0 tT hi]; exact he
      have st := move_step (T := s.T) (t := t) hi
      rw [ang, ← ee] at st
      have e1 := stepOf_unique hd.1 st.1
      have e2 := stepOf_unique hd.2 st.2
      refine ⟨i, by omega, Prod.ext e1 e2, ee, nat_le_ext fun n => ?_⟩
      rw [hb, cost_go hi, e1, e2]
    · obtain ⟨r3, r4⟩ := end_turn h1 t0 tT
      rcases hk with rfl | rfl
      · exact ⟨4, by decide, by simp [dX, dY], UtilsProps.residue_unique he r4, nat_ge_ext fun n => by rw [hb, cost_turn (by decide)]⟩
      · exact ⟨3, by decide, by simp [dX, dY], UtilsProps.residue_unique he r3, nat_ge_ext fun n => by rw [hb, cost_turn (by decide)]⟩
  · rintro ⟨i, hi, rfl, rfl, rfl⟩
    by_cases h3 : i < 3
    · refine .go ((i : Int) - 1) (by omega) (by omega) (end_go h1 t0 tT h3) ?_ (cost_go h3)
      rw [← ang]; exact move_step h3
    · obtain ⟨r3, r4⟩ := end_turn h1 t0 tT
      have : dX s.T t i = 0 ∧ dY s.T t i = 0 := by simp [dX, dY, h3]
      rw [this.1, this.2]
      rcases (show i = 3 ∨ i = 4 by omega) with rfl | rfl
      · exact .turn (-1) (.inr rfl) r3 (cost_turn (by decide))
      · exact .turn 1 (.inl rfl) r4 (cost_turn (by decide))

theorem no_centre {T : Nat} {cs : ℚ} {t : Int} {i : Nat} {r : Int × Int} : ¬ Centre (setup s vel tt) (prim T cs vel tt t i) r := by
  rintro ⟨p, hp, -⟩
  simp [prim] at hp

theorem maxCost_pair {grid : Int → Int → Nat} {S : Int × Int → Prop} {a b : Int × Int} (hS : ∀ z, S z ↔ z = a ∨ z = b) :
    MaxCost grid S (max (grid a.1 a.2) (grid b.1 b.2)) := by
  refine ⟨fun q hq => ?_, .inr ?_⟩
  · rcases (hS q).mp hq with rfl | rfl
    · exact Nat.le_max_left _ _
    · exact Nat.le_max_right _ _
  · rcases Nat.le_total (grid a.1 a.2) (grid b.1 b.2) with h | h
    · exact ⟨b, (hS b).mpr (.inr rfl), by rw [Nat.max_eq_right h]⟩
    · exact ⟨a, (hS a).mpr (.inl rfl), by rw [Nat.max_eq_left h]⟩

/-- **C180** The transitions without motion primitives: from every state, turn by at most one heading and step to the neighbouring cell in the new direction, or turn in place by one
heading (see `DMove`); the states at both ends have to be free, the one at the end below the inscribed threshold; the cost is the basic cost times one plus the larger of the
costs of the two cells.  The footprint matters at the end only, and only if the circumscribed threshold is not positive. -/
theorem default_edge (h1 : 2 ≤ s.T) (h2 : s.T ≤ 128) {grid : Int → Int → Nat} {p q : XKey} {c : Nat} :
    (∃ m, Edge (setup s vel tt) grid m p q c) ↔ DEdge s vel tt grid p q c := by
  have poses : ∀ (t : Int) (i : Nat), 0 ≤ t → t < s.T → i < 5 → ∀ r, Swept (setup s vel tt) (prim s.T s.cs vel tt t i) r ↔
      r ∉ s.foot (s.cs / 2, s.cs / 2, t * (2 * Utils.PI_CONST / s.T)) ∧
      r ∈ s.foot (dX s.T t i * s.cs + s.cs / 2, dY s.T t i * s.cs + s.cs / 2, endTheta s.T t i * (2 * Utils.PI_CONST / s.T)) := by
    intro t i t0 tT hi r
    have e1 : srcPose s.T s.cs t = (s.cs / 2, s.cs / 2, t * (2 * Utils.PI_CONST / s.T)) := by
      simp [srcPose, Utils.discXY2Cont, Utils.discTheta2Cont]
    have e2 : endPose s.T s.cs t i = (dX s.T t i * s.cs + s.cs / 2, dY s.T t i * s.cs + s.cs / 2, endTheta s.T t i * (2 * Utils.PI_CONST / s.T)) := by
      rw [← end_angle (show 1 ≤ s.T by omega) h2 t0 tT i]; rfl
    unfold Swept SweptBy MPrim.poses
    simp only [prim, Option.getD_some, List.cons.injEq]
    rw [e1, e2]
    constructor
    · rintro ⟨p0, ps, ⟨rfl, rfl⟩, a, x, hx, b⟩
      rw [List.mem_singleton.mp hx] at b
      exact ⟨a, b⟩
    · rintro ⟨a, b⟩
      exact ⟨_, _, ⟨rfl, rfl⟩, a, _, List.mem_singleton.mpr rfl, b⟩
  have circ : ∀ t i, (∀ v, MaxCost grid (fun z => ∃ r, Centre (setup s vel tt) (prim s.T s.cs vel tt t i) r ∧ z = shift p r) v → (setup s vel tt).circ ≤ v) ↔ s.circ = 0 := by
    intro t i
    constructor
    · intro h
      have : s.circ ≤ 0 := h 0 ⟨by rintro q ⟨r, hr, -⟩; exact absurd hr no_centre, .inl rfl⟩
      omega
    · intro h v _
      show s.circ ≤ v
      omega
  have cst : ∀ t i v, MaxCost grid (fun z => z = (p.1, p.2.1) ∨ z = (q.1, q.2.1) ∨ ∃ r, Centre (setup s vel tt) (prim s.T s.cs vel tt t i) r ∧ z = shift p r) v ↔
      v = max (grid p.1 p.2.1) (grid q.1 q.2.1) := by
    intro t i v
    have := maxCost_pair (grid := grid) (a := (p.1, p.2.1)) (b := (q.1, q.2.1)) (S := fun z => z = (p.1, p.2.1) ∨ z = (q.1, q.2.1) ∨
        ∃ r, Centre (setup s vel tt) (prim s.T s.cs vel tt t i) r ∧ z = shift p r) (fun z => by
      constructor
      · rintro (h | h | ⟨r, hr, -⟩)
        · exact .inl h
        · exact .inr h
        · exact absurd hr no_centre
      · rintro (h | h)
        · exact .inl h
        · exact .inr (.inl h))
    constructor
    · intro h; exact maxCost_unique h this
    · rintro rfl; exact this
  constructor
  · rintro ⟨m, e⟩
    obtain ⟨t, i, t0, tT, hi, rfl⟩ := mem_prims.mp e.mem
    have ht : t = p.2.2 := e.heading
    subst ht
    have hx : q.1 - p.1 = dX s.T p.2.2 i := by have := e.endX; simp only [prim] at this; omega
    have hy : q.2.1 - p.2.1 = dY s.T p.2.2 i := by have := e.endY; simp only [prim] at this; omega
    obtain ⟨v, hv, hc⟩ := e.cost
    rw [cst] at hv
    subst hv
    refine ⟨⟨⟨e.src.1, t0, tT⟩, e.src.2⟩, e.dst, ⟨endTheta s.T p.2.2 i, cost s.T s.cs vel tt p.2.2 i, ?_, e.endT, hc, ?_⟩, e.finite⟩
    · rw [dmove_iff h1 h2 t0 tT]
      exact ⟨i, hi, Prod.ext hx hy, rfl, rfl⟩
    · intro hp hz r hr hn
      rw [hx, hy] at hr
      exact e.swept hp ((circ _ _).mpr hz) r ((poses _ _ t0 tT hi r).mpr ⟨hn, hr⟩)
  · intro e
    obtain ⟨⟨⟨hs, t0, tT⟩, hso⟩, hd, ⟨te, b, hmv, hres, hc, hsw⟩, hf⟩ := e
    obtain ⟨i, hi, hxy, rfl, rfl⟩ := (dmove_iff h1 h2 t0 tT).mp hmv
    have hx := congrArg Prod.fst hxy
    have hy := congrArg Prod.snd hxy
    simp only at hx hy
    have hm : prim s.T s.cs vel tt p.2.2 i ∈ (setup s vel tt).prims := mem_prims.mpr ⟨p.2.2, i, t0, tT, hi, rfl⟩
    refine ⟨prim s.T s.cs vel tt p.2.2 i, hm, rfl, ?_, ?_, hres, ⟨hs, hso⟩, hd, fun r hr => absurd hr no_centre, ?_, ⟨_, (cst _ _ _).mpr rfl, hc⟩, hf⟩
    · simp only [prim]; omega
    · simp only [prim]; omega
    · intro hp hz r hr
      obtain ⟨a, b⟩ := (poses _ _ t0 tT hi r).mp hr
      refine hsw hp ((circ _ _).mp hz) r ?_ a
      rw [hx, hy]; exact b

end Sbpl.XDflProps
