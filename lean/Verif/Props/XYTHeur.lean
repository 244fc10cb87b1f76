import Verif.Proofs.XYTHeurGeom
/-!
# Heuristics of the (x, y, theta) lattice: C55, C56

The costs, start and goal that a history of calls leaves in force are `costs s (calls ops)`, `startOf s (calls ops)` and `goalOf s (calls ops)`.
-/

namespace Sbpl.XHeurProps
open XSpec XEnv XHeur GridSpec GridBProps

/-! ## C55: GetFromToHeuristic -/

theorem coord_ok {st : XEnv} {id : Nat} {k : XKey} (h : st.getCoord id = .ok k) : st.tab.coord id = some k := by
  unfold XEnv.getCoord at h
  split at h
  · cases h
  next e => cases h; exact e

/-- **C55.** GetFromToHeuristic of two states is their straight-line distance over the nominal velocity, in whole milliseconds; it is
symmetric. -/
theorem from_to_value {s : Setup} {vel : ℚ} {dyn : Nat} {ops : List XHeur.HOp} {h : XHeur} (hh : HHist s vel dyn ops h) {a b : Nat} {p q : XKey}
    (ha : h.env.getCoord a = .ok p) (hb : h.env.getCoord b = .ok q) :
    ∃ v, h.fromTo a b = .ok v ∧ h.fromTo b a = .ok v ∧ FloorDist (1000 * s.cs / vel) (p.1, p.2.1) (q.1, q.2.1) v := by
  obtain ⟨i, -⟩ := hist hh
  have e : h.env.cfg.cs = s.cs := i.env.stc.cs
  have hr : 0 ≤ 1000 * s.cs / vel := div_nonneg (le_trans (by norm_num) hh.cell) hh.vel_pos.le
  refine ⟨_, ?_, ?_, floorDist_floorMulSqrt hr _ _⟩
  · unfold fromTo; rw [ha, hb, e, i.velE]
  · unfold fromTo; rw [ha, hb, e, i.velE, sqDist_symm]

theorem fast_vel {k : Int} {x c vel : ℚ} (hv : 0 < vel) (h : x * x * k ≤ (c * vel) * (c * vel)) : x / vel * (x / vel) * k ≤ c * c := by
  have e : x / vel * (x / vel) * k = (x * x * k) / (vel * vel) := by field_simp
  rw [e, div_le_iff₀ (by positivity)]
  nlinarith

/-- **C55.** If no primitive is faster than the nominal velocity allows, GetFromToHeuristic never overestimates the cost of a path, and it is consistent:
along a transition of cost `c` it decreases by at most `c`. -/
theorem from_to_consistent {s : Setup} {vel : ℚ} {dyn : Nat} {ops : List XHeur.HOp} {h : XHeur} (hh : HHist s vel dyn ops h) (hf : NotTooFast s vel)
    {a b : Nat} {p q : XKey} (ha : h.env.getCoord a = .ok p) (hb : h.env.getCoord b = .ok q) :
    (∀ n, LWalk s (costs s (calls ops)) p q n → ∃ v, h.fromTo a b = .ok v ∧ v ≤ n) ∧
    ∀ m c a' p', h.env.getCoord a' = .ok p' → Edge s (costs s (calls ops)) m p p' c →
      ∃ v v', h.fromTo a b = .ok v ∧ h.fromTo a' b = .ok v' ∧ v ≤ c + v' := by
  constructor
  · intro n w
    obtain ⟨v, h1, -, h3⟩ := from_to_value hh ha hb
    have := fast_vel hh.vel_pos (walk_fast hh.vel_pos hf w)
    refine ⟨v, h1, ?_⟩
    have e := floorDist_le h3 (X := n) (by positivity) (by push_cast at this ⊢; convert this using 1; ring)
    exact_mod_cast e
  · intro m c a' p' ha' e
    obtain ⟨v, h1, -, h3⟩ := from_to_value hh ha hb
    obtain ⟨v', h1', -, h3'⟩ := from_to_value hh ha' hb
    refine ⟨v, v', h1, h1', ?_⟩
    have := fast_vel hh.vel_pos (edge_fast hh.vel_pos hf e)
    have k := floorDist_step h3 h3' (c := c) (by positivity) this
    have : v < v' + 1 + c := by exact_mod_cast k
    omega

/-! ## C56: GetGoalHeuristic and GetStartHeuristic -/

/-- `d` is what a 2D search from cell `p` knows about cell `q`: a lower bound on the costs of all 2D ways, and the cost of one unless the cell is beyond the
range `L` of the search, when it is that range -/
def Known (m : Map) (L : Int) (p q : Cell) (d : Int) : Prop :=
  (∀ n, m.Way p q n → d ≤ n) ∧ (d < L → ∃ n : Nat, d = n ∧ m.Way p q n) ∧ d ≤ L

theorem known_step {m : Map} {L : Int} {o p q : Cell} {d d' : Int} (h : Known m L o p d) (h' : Known m L o q d') {k : Nat} (w : m.Way q p k) :
    d ≤ d' + k := by
  by_cases hl : d' < L
  · obtain ⟨n, e, w'⟩ := h'.2.1 hl
    have := h.1 _ (Grid2D.way_trans w' w)
    rw [e]; push_cast at this; exact this
  · have := h.2.2
    omega

/-- the value of GetGoalHeuristic -/
theorem goal_value {s : Setup} {vel : ℚ} {dyn : Nat} {ops : List XHeur.HOp} {h : XHeur} (hh : HHist s vel dyn ops h) (hu : UpToDate true ops) :
    ∃ L, ∀ id p, h.env.getCoord id = .ok p → ∃ d e,
      h.goalHeur id = .ok (divVel (max d (e : Nat)) vel) ∧
      Known (map2D s (costs s (calls ops))) L ((goalOf s (calls ops)).1, (goalOf s (calls ops)).2.1) (p.1, p.2.1) d ∧
      FloorDist (1000 * s.cs) (p.1, p.2.1) ((goalOf s (calls ops)).1, (goalOf s (calls ops)).2.1) e := by
  obtain ⟨i, t1, t2, t3, u1, u2⟩ := hist hh
  obtain ⟨b, hb, hs⟩ := i.goal (u1 hu)
  obtain ⟨d1, d2⟩ := cell_den hh.cell
  rw [t1, t3, i.env.stc.inscr] at hs
  refine ⟨h.hg.s.largest, fun id p hp => ?_⟩
  have hin := in_map i.env (coord_ok hp)
  have hr : 0 ≤ 1000 * s.cs := le_trans (by norm_num) hh.cell
  obtain ⟨l1, l2, l3, -⟩ := bucket_lower_bounds (Nat.le_refl 1) d1 d2 hb hh.thr (by decide) hs (map2D_describes s _) (p.1, p.2.1)
    (by unfold GridProps.coarse; simp only [Nat.cast_one, Int.tdiv_one]; exact map2D_inside.mpr hin)
  unfold GridProps.coarse at l1 l2
  simp only [Nat.cast_one, Int.tdiv_one] at l1 l2
  refine ⟨_, _, ?_, ⟨l1, l2, l3⟩, floorDist_floorMulSqrt hr _ _⟩
  unfold goalHeur hEuclid
  rw [hp, i.velE, t3, i.env.stc.cs]

/-- the value of GetStartHeuristic -/
theorem start_value {s : Setup} {vel : ℚ} {dyn : Nat} {ops : List XHeur.HOp} {h : XHeur} (hh : HHist s vel dyn ops h) (hu : UpToDate false ops) :
    ∃ L, ∀ id p, h.env.getCoord id = .ok p → ∃ d e,
      h.startHeur id = .ok (divVel (max d (e : Nat)) vel) ∧
      Known (map2D s (costs s (calls ops))) L ((startOf s (calls ops)).1, (startOf s (calls ops)).2.1) (p.1, p.2.1) d ∧
      FloorDist (1000 * s.cs) (p.1, p.2.1) ((startOf s (calls ops)).1, (startOf s (calls ops)).2.1) e := by
  obtain ⟨i, t1, t2, t3, u1, u2⟩ := hist hh
  obtain ⟨b, hb, hs⟩ := i.start (u2 hu)
  obtain ⟨d1, d2⟩ := cell_den hh.cell
  rw [t1, t2, i.env.stc.inscr] at hs
  refine ⟨h.hs.s.largest, fun id p hp => ?_⟩
  have hin := in_map i.env (coord_ok hp)
  have hr : 0 ≤ 1000 * s.cs := le_trans (by norm_num) hh.cell
  obtain ⟨l1, l2, l3, -⟩ := bucket_lower_bounds (Nat.le_refl 1) d1 d2 hb hh.thr (by decide) hs (map2D_describes s _) (p.1, p.2.1)
    (by unfold GridProps.coarse; simp only [Nat.cast_one, Int.tdiv_one]; exact map2D_inside.mpr hin)
  unfold GridProps.coarse at l1 l2
  simp only [Nat.cast_one, Int.tdiv_one] at l1 l2
  refine ⟨_, _, ?_, ⟨l1, l2, l3⟩, floorDist_floorMulSqrt hr _ _⟩
  unfold startHeur hEuclid
  rw [hp, i.velE, t2, i.env.stc.cs, sqDist_symm]

theorem divVel_eq {x : Int} (hx : 0 ≤ x) (vel : ℚ) : divVel x vel = ⌊(x : ℚ) / vel⌋ := by unfold divVel; rw [if_pos hx]

theorem divVel_le {x : Int} {vel : ℚ} (hv : 0 < vel) (hx : 0 ≤ x) {n : Nat} (h : (x : ℚ) ≤ n * vel) : 0 ≤ divVel x vel ∧ divVel x vel ≤ n := by
  rw [divVel_eq hx]
  have hx' : (0 : ℚ) ≤ x := by exact_mod_cast hx
  refine ⟨Int.floor_nonneg.mpr (div_nonneg hx' hv.le), ?_⟩
  have : (x : ℚ) / vel ≤ n := by rw [div_le_iff₀ hv]; exact h
  have h2 : (⌊(x : ℚ) / vel⌋ : ℚ) ≤ n := le_trans (Int.floor_le _) this
  exact_mod_cast h2

/-- rounding: the quotient by the velocity -/
theorem divVel_step {x y : Int} {vel : ℚ} (hv : 0 < vel) (hx : 0 ≤ x) (hy : 0 ≤ y) {c : Nat} (h : (x : ℚ) < y + 1 + c * vel) :
    divVel x vel ≤ divVel y vel + c + ⌈1 / vel⌉ ∧ ∀ z : Nat, vel = z → divVel x vel ≤ divVel y vel + c := by
  rw [divVel_eq hx, divVel_eq hy]
  have a1 := Int.floor_le ((x : ℚ) / vel)
  have a2 := Int.lt_floor_add_one ((y : ℚ) / vel)
  have a3 := Int.le_ceil (1 / vel)
  have a4 : (x : ℚ) / vel < y / vel + 1 / vel + c := by
    rw [div_lt_iff₀ hv]
    have : ((y : ℚ) / vel + 1 / vel + c) * vel = y + 1 + c * vel := by field_simp
    rw [this]; exact h
  constructor
  · have : ((⌊(x : ℚ) / vel⌋ : Int) : ℚ) < ((⌊(y : ℚ) / vel⌋ + c + ⌈1 / vel⌉ + 1 : Int) : ℚ) := by push_cast; linarith
    have : ⌊(x : ℚ) / vel⌋ < ⌊(y : ℚ) / vel⌋ + c + ⌈1 / vel⌉ + 1 := by exact_mod_cast this
    omega
  · intro z hz
    have hxi : x ≤ y + c * z := by
      rw [hz] at h
      have : (x : ℚ) < ((y + 1 + c * z : Int) : ℚ) := by push_cast; exact h
      have : x < y + 1 + c * z := by exact_mod_cast this
      omega
    have hq : (x : ℚ) / vel ≤ y / vel + c := by
      rw [div_le_iff₀ hv]
      have : ((y : ℚ) / vel + c) * vel = y + c * z := by rw [← hz]; field_simp
      rw [this]; exact_mod_cast hxi
    have : ((⌊(x : ℚ) / vel⌋ : Int) : ℚ) < ((⌊(y : ℚ) / vel⌋ + c + 1 : Int) : ℚ) := by push_cast; linarith
    have : ⌊(x : ℚ) / vel⌋ < ⌊(y : ℚ) / vel⌋ + c + 1 := by exact_mod_cast this
    omega

/-- **C56.** After EnsureHeuristicsUpdated(true), as long as costs, start and goal do not change, GetGoalHeuristic is zero at the goal and never
exceeds the cost of a path to it — provided that the primitives are neither faster than the nominal velocity nor than 2D moves along the same
cells. -/
theorem goal_heuristic_admissible {s : Setup} {vel : ℚ} {dyn : Nat} {ops : List XHeur.HOp} {h : XHeur} (hh : HHist s vel dyn ops h) (hu : UpToDate true ops)
    (hf : NotTooFast s vel) (hw : Followable s vel) {id : Nat} {p : XKey} (hp : h.env.getCoord id = .ok p) {n : Nat}
    (w : LWalk s (costs s (calls ops)) p (goalOf s (calls ops)) n) : ∃ v, h.goalHeur id = .ok v ∧ 0 ≤ v ∧ v ≤ n := by
  obtain ⟨L, hL⟩ := goal_value hh hu
  obtain ⟨d, e, h1, h2, h3⟩ := hL id p hp
  refine ⟨_, h1, divVel_le hh.vel_pos (by omega) ?_⟩
  obtain ⟨k, wk, hk⟩ := walk_way hh.vel_pos hw w
  have b1 : (d : ℚ) ≤ n * vel := by
    have : (d : ℚ) ≤ k := by exact_mod_cast h2.1 _ (Grid2D.way_symm wk)
    linarith
  have b2 : (e : ℚ) ≤ n * vel := by
    have := walk_fast hh.vel_pos hf w
    refine floorDist_le h3 (mul_nonneg (by positivity) hh.vel_pos.le) ?_
    push_cast at this ⊢
    convert this using 1; ring
  push_cast
  exact max_le b1 b2

/-- **C56.** Under the same conditions, along a transition of cost `c` GetGoalHeuristic decreases by at most `c` if the nominal velocity is a whole
number, and by at most `c + ⌈1 / velocity⌉` otherwise. -/
theorem goal_heuristic_consistent {s : Setup} {vel : ℚ} {dyn : Nat} {ops : List XHeur.HOp} {h : XHeur} (hh : HHist s vel dyn ops h) (hu : UpToDate true ops)
    (hf : NotTooFast s vel) (hw : Followable s vel) {a b : Nat} {p q : XKey} (ha : h.env.getCoord a = .ok p) (hb : h.env.getCoord b = .ok q)
    {m : MPrim} {c : Nat} (e : Edge s (costs s (calls ops)) m p q c) :
    ∃ u v, h.goalHeur a = .ok u ∧ h.goalHeur b = .ok v ∧ u ≤ v + c + ⌈1 / vel⌉ ∧ ∀ z : Nat, vel = z → u ≤ v + c := by
  obtain ⟨L, hL⟩ := goal_value hh hu
  obtain ⟨d, f, h1, h2, h3⟩ := hL a p ha
  obtain ⟨d', f', h1', h2', h3'⟩ := hL b q hb
  refine ⟨_, _, h1, h1', divVel_step hh.vel_pos (by omega) (by omega) ?_⟩
  obtain ⟨k, wk, hk⟩ := edge_way hh.vel_pos hw e
  have b1 : (d : ℚ) ≤ d' + c * vel := by
    have : (d : ℚ) ≤ d' + k := by exact_mod_cast known_step h2 h2' (Grid2D.way_symm wk)
    linarith
  have b2 := floorDist_step h3 h3' (c := c * vel) (mul_nonneg (by positivity) hh.vel_pos.le) (edge_fast hh.vel_pos hf e)
  have c1 : ((d' : Int) : ℚ) ≤ max (d' : ℚ) f' := le_max_left _ _
  have c2 : ((f' : Nat) : ℚ) ≤ max (d' : ℚ) f' := le_max_right _ _
  push_cast
  rw [max_lt_iff]
  constructor <;> linarith

/-- **C56.** GetStartHeuristic, after EnsureHeuristicsUpdated(false): never more than the cost of a path from the start; zero there. -/
theorem start_heuristic_admissible {s : Setup} {vel : ℚ} {dyn : Nat} {ops : List XHeur.HOp} {h : XHeur} (hh : HHist s vel dyn ops h) (hu : UpToDate false ops)
    (hf : NotTooFast s vel) (hw : Followable s vel) {id : Nat} {p : XKey} (hp : h.env.getCoord id = .ok p) {n : Nat}
    (w : LWalk s (costs s (calls ops)) (startOf s (calls ops)) p n) : ∃ v, h.startHeur id = .ok v ∧ 0 ≤ v ∧ v ≤ n := by
  obtain ⟨L, hL⟩ := start_value hh hu
  obtain ⟨d, e, h1, h2, h3⟩ := hL id p hp
  refine ⟨_, h1, divVel_le hh.vel_pos (by omega) ?_⟩
  obtain ⟨k, wk, hk⟩ := walk_way hh.vel_pos hw w
  have b1 : (d : ℚ) ≤ n * vel := by
    have : (d : ℚ) ≤ k := by exact_mod_cast h2.1 _ wk
    linarith
  have b2 : (e : ℚ) ≤ n * vel :=
    floorDist_le h3 (mul_nonneg (by positivity) hh.vel_pos.le) (walk_fast hh.vel_pos hf w)
  push_cast
  exact max_le b1 b2

/-- **C56.** GetStartHeuristic increases along a transition of cost `c` by at most `c` (whole velocities), `c + ⌈1 / velocity⌉` in general. -/
theorem start_heuristic_consistent {s : Setup} {vel : ℚ} {dyn : Nat} {ops : List XHeur.HOp} {h : XHeur} (hh : HHist s vel dyn ops h) (hu : UpToDate false ops)
    (hf : NotTooFast s vel) (hw : Followable s vel) {a b : Nat} {p q : XKey} (ha : h.env.getCoord a = .ok p) (hb : h.env.getCoord b = .ok q)
    {m : MPrim} {c : Nat} (e : Edge s (costs s (calls ops)) m p q c) :
    ∃ u v, h.startHeur a = .ok u ∧ h.startHeur b = .ok v ∧ v ≤ u + c + ⌈1 / vel⌉ ∧ ∀ z : Nat, vel = z → v ≤ u + c := by
  obtain ⟨L, hL⟩ := start_value hh hu
  obtain ⟨d, f, h1, h2, h3⟩ := hL b q hb
  obtain ⟨d', f', h1', h2', h3'⟩ := hL a p ha
  refine ⟨_, _, h1', h1, divVel_step hh.vel_pos (by omega) (by omega) ?_⟩
  obtain ⟨k, wk, hk⟩ := edge_way hh.vel_pos hw e
  have b1 : (d : ℚ) ≤ d' + c * vel := by
    have : (d : ℚ) ≤ d' + k := by exact_mod_cast known_step h2 h2' wk
    linarith
  have hd := edge_fast hh.vel_pos hf e
  have b2 := floorDist_step h3 h3' (c := c * vel) (mul_nonneg (by positivity) hh.vel_pos.le) (by push_cast at hd ⊢; convert hd using 1; ring)
  have c1 : ((d' : Int) : ℚ) ≤ max (d' : ℚ) f' := le_max_left _ _
  have c2 : ((f' : Nat) : ℚ) ≤ max (d' : ℚ) f' := le_max_right _ _
  push_cast
  rw [max_lt_iff]
  constructor <;> linarith

/-- **C56.** EnsureHeuristicsUpdated raises an exception only for a bucket that is full, and never on a map of at most 1000 cells. -/
theorem ensure_ok {s : Setup} {vel : ℚ} {dyn : Nat} {ops : List XHeur.HOp} {h : XHeur} (hh : HHist s vel dyn ops h) (goal : Bool) :
    (h.ensure goal = .error (.bucket .full) ∧ max 1000 (s.W.toNat + s.H.toNat) < s.W.toNat * s.H.toNat) ∨ ∃ h', h.ensure goal = .ok h' := by
  obtain ⟨i, -⟩ := hist hh
  obtain ⟨d1, d2⟩ := cell_den hh.cell
  have ht : h.env.cfg.inscr ≤ 254 := by rw [i.env.stc.inscr]; exact hh.thr
  unfold XHeur.ensure
  split_ifs with c1 c2
  · rcases bucket_search_total d1 d2 i.hs h.env.cfg.grid ht (h.env.cfg.start.1, h.env.cfg.start.2.1) (h.env.cfg.goal.1, h.env.cfg.goal.2.1) .twoTimes
      with ⟨q1, q2⟩ | ⟨v, b', q, -⟩
    · left; rw [q1]; simp only [Nat.div_one] at q2; exact ⟨rfl, q2⟩
    · right; rw [q]; exact ⟨_, rfl⟩
  · rcases bucket_search_total d1 d2 i.hg h.env.cfg.grid ht (h.env.cfg.goal.1, h.env.cfg.goal.2.1) (h.env.cfg.start.1, h.env.cfg.start.2.1) .twoTimes
      with ⟨q1, q2⟩ | ⟨v, b', q, -⟩
    · left; rw [q1]; simp only [Nat.div_one] at q2; exact ⟨rfl, q2⟩
    · right; rw [q]; exact ⟨_, rfl⟩
  · right; exact ⟨_, rfl⟩

end Sbpl.XHeurProps
