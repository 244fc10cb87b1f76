import Mathlib.Tactic.Linarith
import Mathlib.Tactic.Ring
import Verif.Model.Nav2DRand
import Verif.Props.Nav2DMore
/-!
# Random neighbours of `EnvironmentNAV2D` (C144)
-/

namespace Sbpl.Nav2DProps
open Sbpl GridSpec StateTable Nav2D

theorem truncR_le {x : ℝ} {n : Nat} (h : |x| ≤ (n : ℝ) + 1 / 2) : |truncR x| ≤ (n : Int) := by
  rw [abs_le] at h ⊢
  unfold truncR
  split
  · rename_i h0
    refine ⟨le_trans (by omega) (Int.floor_nonneg.mpr h0), ?_⟩
    have : ⌊x⌋ < (n : Int) + 1 := by
      rw [Int.floor_lt]; push_cast; linarith [h.2]
    omega
  · rename_i h0
    have h0 : x < 0 := lt_of_not_ge h0
    have h1 : -((n : Int) + 1) < ⌈x⌉ := by
      rw [Int.lt_ceil]; push_cast; linarith [h.1]
    have h2 : ⌈x⌉ ≤ 0 := by rw [Int.ceil_le]; push_cast; linarith
    omega

theorem truncR_half (n : Nat) : truncR ((n : ℝ) + 1 / 2) = n ∧ truncR (-((n : ℝ) + 1 / 2)) = -(n : Int) := by
  have hn : (0 : ℝ) ≤ n := Nat.cast_nonneg n
  constructor
  · unfold truncR
    rw [if_pos (by linarith), Int.floor_eq_iff]
    push_cast
    constructor <;> linarith
  · unfold truncR
    rw [if_neg (by linarith), Int.ceil_eq_iff]
    push_cast
    constructor <;> linarith

theorem truncR_near (x : ℝ) : |(truncR x : ℝ)| ≤ |x| ∧ |x - truncR x| < 1 := by
  unfold truncR
  split
  · rename_i h0
    have h1 := Int.floor_le x
    have h2 := Int.lt_floor_add_one x
    have h3 : (0 : ℝ) ≤ ⌊x⌋ := by exact_mod_cast Int.floor_nonneg.mpr h0
    rw [abs_of_nonneg h3, abs_of_nonneg h0, abs_lt]
    exact ⟨h1, by linarith, by linarith⟩
  · rename_i h0
    have h0 : x < 0 := lt_of_not_ge h0
    have h1 := Int.le_ceil x
    have h2 := Int.ceil_lt_add_one x
    have h3 : ((⌈x⌉ : Int) : ℝ) ≤ 0 := by
      have : ⌈x⌉ ≤ 0 := by rw [Int.ceil_le]; push_cast; linarith
      exact_mod_cast this
    rw [abs_of_nonpos h3, abs_of_neg h0, abs_lt]
    exact ⟨by linarith, by linarith, by linarith⟩

/-- the larger component of the unrounded displacement is exactly `dist + 1/2` -/
theorem ring_real (dist : Nat) (dir : ℝ) :
    (|neighRadius dist dir * Real.cos dir| = dist + 1 / 2 ∧ |neighRadius dist dir * Real.sin dir| ≤ dist + 1 / 2) ∨
    (|neighRadius dist dir * Real.sin dir| = dist + 1 / 2 ∧ |neighRadius dist dir * Real.cos dir| ≤ dist + 1 / 2) := by
  have hn : (0 : ℝ) ≤ dist := Nat.cast_nonneg dist
  have hp : (0 : ℝ) < (dist : ℝ) + 1 / 2 := by linarith
  have key : ∀ a b : ℝ, |b| ≤ |a| → 0 < |a| →
      |((dist : ℝ) + 1 / 2) / |a| * a| = dist + 1 / 2 ∧ |((dist : ℝ) + 1 / 2) / |a| * b| ≤ dist + 1 / 2 := by
    intro a b hab ha
    have e : ∀ z : ℝ, |((dist : ℝ) + 1 / 2) / |a| * z| = ((dist : ℝ) + 1 / 2) / |a| * |z| := by
      intro z; rw [abs_mul, abs_div, abs_abs, abs_of_pos hp]
    refine ⟨?_, ?_⟩
    · rw [e, div_mul_cancel₀ _ (ne_of_gt ha)]
    · rw [e]
      calc ((dist : ℝ) + 1 / 2) / |a| * |b| ≤ ((dist : ℝ) + 1 / 2) / |a| * |a| :=
            mul_le_mul_of_nonneg_left hab (div_nonneg hp.le ha.le)
        _ = dist + 1 / 2 := div_mul_cancel₀ _ (ne_of_gt ha)
  unfold neighRadius
  split
  · rename_i h
    left
    exact key _ _ h.le (lt_of_le_of_lt (abs_nonneg _) h)
  · rename_i h
    right
    have h : |Real.cos dir| ≤ |Real.sin dir| := not_lt.mp h
    have hs : 0 < |Real.sin dir| := by
      rcases lt_or_eq_of_le (abs_nonneg (Real.sin dir)) with q | q
      · exact q
      · exfalso
        rw [← q] at h
        have c0 : Real.cos dir = 0 := abs_eq_zero.mp (le_antisymm h (abs_nonneg _))
        have s0 : Real.sin dir = 0 := abs_eq_zero.mp q.symm
        have := Real.sin_sq_add_cos_sq dir
        rw [c0, s0] at this
        norm_num at this
    exact key _ _ h hs

theorem abs_trunc_half {x : ℝ} {n : Nat} (h : |x| = (n : ℝ) + 1 / 2) : |truncR x| = (n : Int) := by
  rcases abs_cases x with ⟨e, _⟩ | ⟨e, _⟩
  · rw [e] at h; rw [h, (truncR_half n).1]; simp
  · have : x = -((n : ℝ) + 1 / 2) := by linarith
    rw [this, (truncR_half n).2]; simp

/-- **C144, the ring** Whatever the direction, the displacement has no component larger than `dist` and one that is
`dist` exactly: the exception of GetRandomNeighs is never raised. -/
theorem neighbour_ring (dist : Nat) (dir : ℝ) :
    max |(neighDisp dist dir).1| |(neighDisp dist dir).2| = (dist : Int) ∧ ¬ neighBad dist (neighDisp dist dir) := by
  have key : max |(neighDisp dist dir).1| |(neighDisp dist dir).2| = (dist : Int) := by
    unfold neighDisp
    rcases ring_real dist dir with ⟨h1, h2⟩ | ⟨h1, h2⟩
    · rw [abs_trunc_half h1, max_eq_left (truncR_le h2)]
    · rw [abs_trunc_half h1, max_eq_right (truncR_le h2)]
  refine ⟨key, ?_⟩
  unfold neighBad
  rintro (⟨h1, h2⟩ | h | h)
  · have := max_lt h1 h2; omega
  · have := le_max_left |(neighDisp dist dir).1| |(neighDisp dist dir).2|; omega
  · have := le_max_right |(neighDisp dist dir).1| |(neighDisp dist dir).2|; omega

/-- **C144, the direction** The displacement is less than one cell (in each coordinate) from the point where the ray in
the given direction leaves the square of half-width `dist + 1/2`. -/
theorem neighbour_direction (dist : Nat) (dir : ℝ) : ∃ r : ℝ, 0 < r ∧
    max |r * Real.cos dir| |r * Real.sin dir| = dist + 1 / 2 ∧
    |r * Real.cos dir - (neighDisp dist dir).1| < 1 ∧ |r * Real.sin dir - (neighDisp dist dir).2| < 1 := by
  refine ⟨neighRadius dist dir, ?_, ?_, (truncR_near _).2, (truncR_near _).2⟩
  · have hn : (0 : ℝ) ≤ dist := Nat.cast_nonneg dist
    have nn : 0 ≤ neighRadius dist dir := by
      unfold neighRadius; split <;> exact div_nonneg (by linarith) (abs_nonneg _)
    rcases lt_or_eq_of_le nn with q | q
    · exact q
    · exfalso
      rcases ring_real dist dir with ⟨h1, _⟩ | ⟨h1, _⟩ <;>
      · rw [← q, zero_mul, abs_zero] at h1; linarith
  · rcases ring_real dist dir with ⟨h1, h2⟩ | ⟨h1, h2⟩
    · rw [h1, max_eq_left h2]
    · rw [h1, max_eq_right h2]

/-- the cell reached from `p` in a direction -/
noncomputable def cellAt (p : Int × Int) (dist : Nat) (dir : ℝ) : Int × Int :=
  (p.1 + (neighDisp dist dir).1, p.2 + (neighDisp dist dir).2)

theorem neighLoop_spec (p : Int × Int) (dist : Nat) : ∀ (left need : Nat) (dirs : Nat → ℝ) (st : Nav2D), TInv hash st.tab →
    ∃ st' l, neighLoop p.1 p.2 dist dirs left need st = some (st', l) ∧ TInv hash st'.tab ∧ Ext st st' ∧
      l.map (fun e => (st'.tab.coord e.1, e.2)) =
        ((((List.range left).map (fun i => cellAt p dist (dirs i))).filter (fun k => st.cfg.valid k.1 k.2)).take need).map
          (fun k => (some k, eucl p k))
  | 0, need, dirs, st, hi => ⟨st, [], by unfold neighLoop; rfl, hi, Ext.refl st, by simp⟩
  | left + 1, 0, dirs, st, hi => ⟨st, [], by unfold neighLoop; rfl, hi, Ext.refl st, by simp⟩
  | left + 1, need + 1, dirs, st, hi => by
    have nb := (neighbour_ring dist (dirs 0)).2
    have er : (List.range (left + 1)).map (fun i => cellAt p dist (dirs i)) =
        cellAt p dist (dirs 0) :: (List.range left).map (fun i => cellAt p dist (dirs (i + 1))) := by
      rw [List.range_succ_eq_map, List.map_cons, List.map_map]; rfl
    rw [er]
    unfold neighLoop
    simp only
    rw [if_neg nb]
    by_cases v : st.cfg.valid (cellAt p dist (dirs 0)).1 (cellAt p dist (dirs 0)).2 = true
    · have v' : ¬ st.cfg.valid (p.1 + (neighDisp dist (dirs 0)).1) (p.2 + (neighDisp dist (dirs 0)).2) = false := by
        intro q; have : st.cfg.valid (cellAt p dist (dirs 0)).1 (cellAt p dist (dirs 0)).2 = false := q
        rw [v] at this; cases this
      rw [if_neg v']
      obtain ⟨st', l, h1, h2, h3, h4⟩ := neighLoop_spec p dist left need (fun i => dirs (i + 1))
        (st.getState (cellAt p dist (dirs 0))).1 (getState_inv hi _)
      have h1' := h1
      unfold cellAt at h1'
      rw [h1']
      refine ⟨st', _, rfl, h2, (getState_ext st _).trans h3, ?_⟩
      rw [List.filter_cons_of_pos (by exact v), List.take_succ_cons, List.map_cons, List.map_cons]
      congr 1
      · have := coord_prefix h3.pre (getState_coord hi (cellAt p dist (dirs 0)))
        simp only [Prod.mk.injEq]
        exact ⟨this, rfl⟩
    · have v' : st.cfg.valid (p.1 + (neighDisp dist (dirs 0)).1) (p.2 + (neighDisp dist (dirs 0)).2) = false := by
        have : st.cfg.valid (cellAt p dist (dirs 0)).1 (cellAt p dist (dirs 0)).2 = false := by simpa using v
        exact this
      rw [if_pos v']
      rw [List.filter_cons_of_neg (by exact v)]
      exact neighLoop_spec p dist left (need + 1) (fun i => dirs (i + 1)) st hi

section
variable {W H : Int} {map : Int → Nat} {s g : Int × Int} {obs : Nat} {is16 : Bool} {ops : List NavOp} {st : Nav2D}

/-- **C144** After any history, for every sequence of random directions, GetRandomNeighs of an existing state (at cell
`p`) raises no exception and returns: the first `num` free map cells among those in the first `5 * num` directions, each
with its straight-line distance from `p` (1000 per cell, rounded down) as lower bound, and then the target
(goal or start), with its distance, if and only if it lies at most `dist` cells away in both coordinates.  The IDs
decode to these cells, all earlier IDs keep their meaning and the map is unchanged. -/
theorem random_neighbours (h : Hist W H map s g obs is16 ops st) {id desId : Nat} {p des : Int × Int}
    (hid : st.getCoord id = .ok p) (hdes : st.getCoord desId = .ok des) (num dist : Nat) (dirs : Nat → ℝ) :
    ∃ st' l, st.getRandomNeighs id num dist dirs des desId = .ok (some (st', l)) ∧ st'.cfg = st.cfg ∧
      (∀ i k, st.getCoord i = .ok k → st'.getCoord i = .ok k) ∧
      ∃ ks : List (Int × Int),
        ks = (((List.range (5 * num)).map (fun i => cellAt p dist (dirs i))).filter
          (fun k => decide (0 ≤ k.1 ∧ k.1 < W ∧ 0 ≤ k.2 ∧ k.2 < H ∧ st.cfg.grid k.1 k.2 < obs))).take num ∧
        l.map (fun e => (st'.getCoord e.1, e.2)) =
          (ks ++ if |des.1 - p.1| ≤ (dist : Int) ∧ |des.2 - p.2| ≤ (dist : Int) then [des] else []).map
            (fun k => (Except.ok k, eucl p k)) := by
  obtain ⟨i, eW, eH, eo, _⟩ := h.inv
  obtain ⟨st', l, h1, h2, h3, h4⟩ := neighLoop_spec p dist (5 * num) num dirs st i.tab
  have hpre : ∀ i k, st.getCoord i = .ok k → st'.getCoord i = .ok k := fun i k q =>
    getCoord_ok.mpr (coord_prefix h3.pre (getCoord_ok.mp q))
  have ev : (fun k : Int × Int => st.cfg.valid k.1 k.2) =
      (fun k => decide (0 ≤ k.1 ∧ k.1 < W ∧ 0 ≤ k.2 ∧ k.2 < H ∧ st.cfg.grid k.1 k.2 < obs)) := by
    funext k
    simp only [NavCfg.valid, NavCfg.within, eW, eH, eo]
    rw [← Bool.decide_and]
    congr 1
    simp only [and_assoc]
  rw [ev] at h4
  have h5 : l.map (fun e => (st'.getCoord e.1, e.2)) =
      ((((List.range (5 * num)).map (fun i => cellAt p dist (dirs i))).filter
          (fun k => decide (0 ≤ k.1 ∧ k.1 < W ∧ 0 ≤ k.2 ∧ k.2 < H ∧ st.cfg.grid k.1 k.2 < obs))).take num).map
            (fun k => (Except.ok k, eucl p k)) := by
    have := congrArg (List.map (fun e : Option (Int × Int) × Nat =>
      ((match e.1 with | none => .error .badId | some k => .ok k : Except EnvErr (Int × Int)), e.2))) h4
    rw [List.map_map, List.map_map] at this
    exact this
  unfold getRandomNeighs
  rw [hid]
  simp only
  rw [h1]
  simp only
  by_cases hc : |des.1 - p.1| ≤ (dist : Int) ∧ |des.2 - p.2| ≤ (dist : Int)
  · rw [if_pos hc, fromToHeur_ok (hpre _ _ hid) (hpre _ _ hdes)]
    refine ⟨st', _, rfl, h3.cfg, hpre, _, rfl, ?_⟩
    rw [if_pos hc, List.map_append, List.map_append, h5]
    simp only [List.map_cons, List.map_nil]
    rw [hpre _ _ hdes]
  · rw [if_neg hc]
    refine ⟨st', l, rfl, h3.cfg, hpre, _, rfl, ?_⟩
    rw [if_neg hc, List.append_nil]; exact h5

/-- **C144, what a caller sees** Every entry of the answer is a free map cell exactly `dist` cells away (in the larger
coordinate), or it is the target, at most `dist` cells away; there are at most `num + 1` entries; the lower bound is the
straight-line distance rounded down. -/
theorem random_neighbours_entries (h : Hist W H map s g obs is16 ops st) {id desId : Nat} {p des : Int × Int}
    (hid : st.getCoord id = .ok p) (hdes : st.getCoord desId = .ok des) (num dist : Nat) (dirs : Nat → ℝ) :
    ∃ st' l, st.getRandomNeighs id num dist dirs des desId = .ok (some (st', l)) ∧ l.length ≤ num + 1 ∧
      ∀ e ∈ l, ∃ k, st'.getCoord e.1 = .ok k ∧ IsLength (p.1 - k.1) (p.2 - k.2) e.2 ∧
        ((InMap W H k.1 k.2 ∧ st.cfg.grid k.1 k.2 < obs ∧ max |k.1 - p.1| |k.2 - p.2| = (dist : Int)) ∨
         (k = des ∧ max |k.1 - p.1| |k.2 - p.2| ≤ (dist : Int))) := by
  obtain ⟨st', l, h1, h2, h3, ks, h4, h5⟩ := random_neighbours h hid hdes num dist dirs
  refine ⟨st', l, h1, ?_, ?_⟩
  · have := congrArg List.length h5
    rw [List.length_map, List.length_map, List.length_append] at this
    have hk : ks.length ≤ num := by rw [h4]; exact List.length_take_le _ _
    have ht : (if |des.1 - p.1| ≤ (dist : Int) ∧ |des.2 - p.2| ≤ (dist : Int) then [des] else []).length ≤ 1 := by
      split <;> simp
    omega
  · intro e he
    have := List.mem_map_of_mem (f := fun e : Nat × Nat => (st'.getCoord e.1, e.2)) he
    rw [h5] at this
    obtain ⟨k, hk, e1⟩ := List.mem_map.mp this
    simp only [Prod.mk.injEq] at e1
    refine ⟨k, e1.1.symm, by rw [← e1.2]; exact eucl_sq p k, ?_⟩
    rcases List.mem_append.mp hk with q | q
    · left
      rw [h4] at q
      have q := List.mem_of_mem_take q
      rw [List.mem_filter, decide_eq_true_eq] at q
      obtain ⟨q1, a1, a2, a3, a4, a5⟩ := q
      refine ⟨⟨a1, a2, a3, a4⟩, a5, ?_⟩
      obtain ⟨i, _, rfl⟩ := List.mem_map.mp q1
      have := (neighbour_ring dist (dirs i)).1
      simp only [cellAt, add_sub_cancel_left]
      exact this
    · right
      split at q
      · rename_i hc
        rw [List.mem_singleton] at q
        subst q
        exact ⟨rfl, max_le hc.1 hc.2⟩
      · cases q

/-- **C144, R*'s calls** GetRandomSuccsatDistance of a state other than the goal and GetRandomPredsatDistance of a state
other than the start are such calls (10 neighbours, 100 or 5 cells away, target: the goal or the start); for the goal, or
the start, the output vectors are left as they were. -/
theorem random_calls (h : Hist W H map s g obs is16 ops st) {id : Nat} {p : Int × Int} (hid : st.getCoord id = .ok p)
    (old : List (Nat × Nat)) (dirs : Nat → ℝ) :
    (id ≠ st.goalId → st.getRandomSuccs id old dirs = st.getRandomNeighs id 10 100 dirs st.cfg.goal st.goalId) ∧
    (id ≠ st.startId → st.getRandomPreds id old dirs = st.getRandomNeighs id 10 5 dirs st.cfg.start st.startId) ∧
    st.getRandomSuccs st.goalId old dirs = .ok (some (st, old)) ∧
    st.getRandomPreds st.startId old dirs = .ok (some (st, old)) ∧
    st.getCoord st.goalId = .ok st.cfg.goal ∧ st.getCoord st.startId = .ok st.cfg.start := by
  refine ⟨fun q => ?_, fun q => ?_, ?_, ?_, getCoord_ok.mpr h.inv.1.goal, getCoord_ok.mpr h.inv.1.start⟩
  · unfold getRandomSuccs; rw [if_neg q]
  · unfold getRandomPreds; rw [if_neg q]
  · unfold getRandomSuccs; rw [if_pos rfl]
  · unfold getRandomPreds; rw [if_pos rfl]

/-- **C144, AreEquivalent** relates existing states exactly if they are equal. -/
theorem equivalent_iff_equal (h : Hist W H map s g obs is16 ops st) {a b : Nat} {p q : Int × Int}
    (ha : st.getCoord a = .ok p) (hb : st.getCoord b = .ok q) : st.areEquivalent a b = .ok (decide (a = b)) := by
  unfold areEquivalent
  rw [ha, hb]
  simp only [Except.ok.injEq, decide_eq_decide]
  constructor
  · rintro ⟨e1, e2⟩
    have : p = q := Prod.ext e1 e2
    subst this
    exact (ids_dense_injective h).2.2 a b p ha hb
  · rintro rfl
    rw [ha] at hb; cases hb; exact ⟨rfl, rfl⟩

end

/-- the hypotheses are met: start and goal of an empty 9 x 9 map; the predecessors of the goal, all directions due east
(angle 0): the start, 5 cells to the west, is the target and 5 cells to the east is outside the map -/
example : ∃ st, Hist 9 9 (fun _ => 0) (0, 4) (5, 4) 1 false [] st ∧
    ∃ st' l, st.getRandomPreds st.goalId [] (fun _ => 0) = .ok (some (st', l)) ∧ l = [(st.startId, 5000)] := by
  refine ⟨_, ⟨_, rfl, rfl⟩, ?_⟩
  set st : Nav2D := _ with hst
  have hh : Hist 9 9 (fun _ => 0) (0, 4) (5, 4) 1 false [] st := ⟨_, rfl, rfl⟩
  have hg : st.getCoord st.goalId = .ok (5, 4) := getCoord_ok.mpr hh.inv.1.goal
  have hs : st.getCoord st.startId = .ok (0, 4) := getCoord_ok.mpr hh.inv.1.start
  obtain ⟨st', l, h1, h2, h3, ks, h4, h5⟩ := random_neighbours hh hg hs 10 5 (fun _ => 0)
  have hd : neighDisp 5 0 = (5, 0) := by
    have e1 : neighRadius 5 0 = (5 : ℕ) + 1 / 2 := by unfold neighRadius; simp
    unfold neighDisp
    rw [e1, Real.cos_zero, Real.sin_zero, mul_one, mul_zero, (truncR_half 5).1]
    simp [truncR]
  have hc : cellAt (5, 4) 5 0 = (10, 4) := by unfold cellAt; rw [hd]; rfl
  have hk : ks = [] := by
    rw [h4]
    simp only [hc]
    decide
  rw [hk] at h5
  refine ⟨st', l, ?_, ?_⟩
  · rw [((random_calls hh hg [] (fun _ => 0)).2.1 (by decide))]
    exact h1
  · have e5 : eucl (5, 4) (0, 4) = 5000 := by decide +kernel
    rw [show (([] : List (Int × Int)) ++ (if |((0, 4) : Int × Int).1 - ((5, 4) : Int × Int).1| ≤ ((5 : Nat) : Int) ∧ |((0, 4) : Int × Int).2 - ((5, 4) : Int × Int).2| ≤ ((5 : Nat) : Int) then [((0, 4) : Int × Int)] else [])) = [(0, 4)] from by decide] at h5
    simp only [List.map_cons, List.map_nil] at h5
    rcases l with _ | ⟨⟨i, c⟩, l⟩
    · cases h5
    · simp only [List.map_cons, List.cons.injEq, Prod.mk.injEq] at h5
      obtain ⟨⟨a1, a2⟩, a3⟩ := h5
      have a3 : l = [] := by simpa using a3
      rw [a3, a2, e5]
      have hs' := h3 _ _ hs
      have i' : NInv st' := by
        obtain ⟨st'', l'', b1, b2, b3, _⟩ := neighLoop_spec (5, 4) 5 (5 * 10) 10 (fun _ => 0) st hh.inv.1.tab
        have : st.getRandomNeighs st.goalId 10 5 (fun _ => 0) (0, 4) st.startId = .ok (some (st'', l'' ++ [(st.startId, eucl (5, 4) (0, 4))])) := by
          unfold getRandomNeighs
          rw [hg]; simp only; rw [b1]; simp only
          rw [if_pos (by decide)]
          have q1 := getCoord_ok.mpr (coord_prefix b3.pre (getCoord_ok.mp hg))
          have q2 := getCoord_ok.mpr (coord_prefix b3.pre (getCoord_ok.mp hs))
          rw [fromToHeur_ok q1 q2]
        rw [this] at h1
        simp only [Except.ok.injEq, Option.some.injEq, Prod.mk.injEq] at h1
        rw [← h1.1]
        exact hh.inv.1.ext b3 b2
      have e1 := getState_of_coord i' (getCoord_ok.mp a1)
      have e2 := getState_of_coord i' (getCoord_ok.mp hs')
      rw [e1] at e2
      simp only [Prod.mk.injEq] at e2
      rw [e2.2]

end Sbpl.Nav2DProps
