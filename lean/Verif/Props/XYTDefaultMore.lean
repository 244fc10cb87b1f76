import Verif.Props.XYTDefaultHist
/-!
# The (x, y, theta) lattice without motion primitives: directions, and what is not checked
-/

namespace Sbpl.XDflProps
open Sbpl XSpec XEnv XCfg XDfl UtilsSpec XYTProps XYTPathProps

variable {s : Setup} {vel tt : ℚ} {ops : List Op} {st : XEnv}

/-! ## Directions -/

/-- **C181** A move that is not a turn goes to one of the eight neighbouring cells, and its direction differs from the new heading by at most 30 degrees (the cosine of the difference is at
least √3/2).  In particular the robot never stays in place. -/
theorem step_direction {a : ℚ} {d : Int × Int} (h : StepTo a d) : d ≠ (0, 0) ∧ (-1 ≤ d.1 ∧ d.1 ≤ 1) ∧ (-1 ≤ d.2 ∧ d.2 ≤ 1) ∧
    Real.sqrt 3 / 2 * Real.sqrt ((d.1 * d.1 + d.2 * d.2 : Int) : ℝ) ≤ d.1 * Real.cos a + d.2 * Real.sin a := by
  obtain ⟨h1, h2⟩ := h
  have r1 := stepOf_range h1
  have r2 := stepOf_range h2
  have pyth := Real.sin_sq_add_cos_sq (a : ℝ)
  obtain ⟨x1, x2, x3⟩ := h1
  obtain ⟨y1, y2, y3⟩ := h2
  obtain ⟨d1, d2⟩ := d
  dsimp only at *
  generalize Real.cos (a : ℝ) = c at *
  generalize Real.sin (a : ℝ) = w at *
  have key : ∀ n : Int, ∀ x : ℝ, 0 ≤ x → 3 * (n : ℝ) ≤ 4 * (x * x) → Real.sqrt 3 / 2 * Real.sqrt (n : ℝ) ≤ x := by
    intro n x hx h
    have e : Real.sqrt 3 / 2 * Real.sqrt (n : ℝ) = Real.sqrt (3 * (n : ℝ)) / 2 := by
      rw [Real.sqrt_mul (by norm_num)]; ring
    rw [e, div_le_iff₀ (by norm_num)]
    apply Real.sqrt_le_iff.mpr
    constructor
    · linarith
    · nlinarith
  have tri : ∀ (v : ℝ) (d : Int), (1 / 2 ≤ v → d = 1) → (v ≤ -(1 / 2) → d = -1) → (-(1 / 2) < v → v < 1 / 2 → d = 0) →
      (d = 1 ∧ 1 / 2 ≤ v) ∨ (d = -1 ∧ v ≤ -(1 / 2)) ∨ (d = 0 ∧ -(1 / 2) < v ∧ v < 1 / 2) := by
    intro v d a b e
    by_cases c1 : 1 / 2 ≤ v
    · exact .inl ⟨a c1, c1⟩
    · by_cases c2 : v ≤ -(1 / 2)
      · exact .inr (.inl ⟨b c2, c2⟩)
      · exact .inr (.inr ⟨e (by linarith) (by linarith), by linarith, by linarith⟩)
  refine ⟨?_, r1, r2, key _ _ ?_ ?_⟩
  · intro h0
    simp only [Prod.mk.injEq] at h0
    obtain ⟨rfl, rfl⟩ := h0
    rcases tri c 0 x1 x2 x3 with ⟨h, -⟩ | ⟨h, -⟩ | ⟨-, p1, p2⟩
    · omega
    · omega
    rcases tri w 0 y1 y2 y3 with ⟨h, -⟩ | ⟨h, -⟩ | ⟨-, q1, q2⟩
    · omega
    · omega
    nlinarith
  all_goals
    rcases tri c d1 x1 x2 x3 with ⟨rfl, p⟩ | ⟨rfl, p⟩ | ⟨rfl, p1, p2⟩ <;>
    rcases tri w d2 y1 y2 y3 with ⟨rfl, q⟩ | ⟨rfl, q⟩ | ⟨rfl, q1, q2⟩ <;>
    push_cast <;> nlinarith

/-- the bound is attained: a direction of 30 degrees; the step is to the diagonal neighbour or straight on -/
example : StepOf (1 / 2) 1 ∧ StepOf (Real.sqrt 3 / 2) 1 := by
  constructor
  · exact ⟨fun _ => rfl, fun h => by norm_num at h, fun _ h => by norm_num at h⟩
  · have : (1 : ℝ) ≤ Real.sqrt 3 := by
      rw [show (1 : ℝ) = Real.sqrt 1 by simp]
      exact Real.sqrt_le_sqrt (by norm_num)
    exact ⟨fun _ => rfl, fun h => by linarith, fun _ h => by linarith⟩

/-- heading 0 goes to the right, whatever the number of headings -/
theorem step_east : StepTo 0 (1, 0) := by
  unfold StepTo StepOf
  simp only [Rat.cast_zero, Real.cos_zero, Real.sin_zero]
  norm_num

/-- **C181** Every move of the lattice without primitives changes the heading by at most one; it is either a turn in place by one heading, or a step to a neighbouring cell in the direction
of the new heading (rounded, see `step_direction`).  In place without turning, and sideways or backwards, there is no move. -/
theorem edge_shape {grid : Int → Int → Nat} {p q : XKey} {c : Nat} (h : DEdge s vel tt grid p q c) :
    ((q.1, q.2.1) = (p.1, p.2.1) ∧ ∃ k, (k = 1 ∨ k = -1) ∧ IsResidue (p.2.2 + k) s.T q.2.2) ∨
    ((∃ k, -1 ≤ k ∧ k ≤ 1 ∧ IsResidue (p.2.2 + k) s.T q.2.2) ∧
      ∃ e : Int, IsResidue e s.T q.2.2 ∧ StepTo (e * (2 * Utils.PI_CONST / s.T)) (q.1 - p.1, q.2.1 - p.2.1)) := by
  obtain ⟨e, b, hm, he, -, -⟩ := h.move
  obtain ⟨d, hd⟩ : ∃ d : Int × Int, d = (q.1 - p.1, q.2.1 - p.2.1) := ⟨_, rfl⟩
  rw [← hd] at hm ⊢
  cases hm with
  | go k k1 k2 ee hs hb =>
    refine .inr ⟨⟨k, k1, k2, ?_⟩, e, he, hs⟩
    obtain ⟨r0, r1, z, hz⟩ := he
    subst ee
    split_ifs at hz with hT
    · exact ⟨r0, r1, z + 1, by rw [hT]; linarith⟩
    · exact ⟨r0, r1, z, hz⟩
  | turn k hk hr hb =>
    simp only [Prod.mk.injEq] at hd
    refine .inl ⟨by ext <;> simp <;> omega, k, hk, ?_⟩
    obtain ⟨r0, r1, z, hz⟩ := he
    obtain ⟨r0', r1', z', hz'⟩ := hr
    exact ⟨r0, r1, z + z', by rw [hz'] at *; linarith⟩

/-! ## The footprint -/

theorem dmove_foot (poly : Bool) (foot : ℚ × ℚ × ℚ → List (Int × Int)) {t : Int} {d : Int × Int} {e : Int} {b : Nat} :
    DMove { s with poly := poly, foot := foot } vel tt t d e b ↔ DMove s vel tt t d e b := by
  constructor
  · intro m
    cases m with
    | go k h1 h2 h3 h4 h5 => exact .go k h1 h2 h3 h4 h5
    | turn k h1 h2 h3 => exact .turn k h1 h2 h3
  · intro m
    cases m with
    | go k h1 h2 h3 h4 h5 => exact .go k h1 h2 h3 h4 h5
    | turn k h1 h2 h3 => exact .turn k h1 h2 h3

/-- **C182** If the circumscribed threshold is positive, the moves do not depend on the footprint of the robot. -/
theorem footprint_ignored (hc : 0 < s.circ) (poly : Bool) (foot : ℚ × ℚ × ℚ → List (Int × Int)) {grid : Int → Int → Nat} {p q : XKey} {c : Nat} :
    DEdge { s with poly := poly, foot := foot } vel tt grid p q c ↔ DEdge s vel tt grid p q c := by
  constructor
  · rintro ⟨a, b, ⟨e, n, m, r, h, -⟩, d⟩
    exact ⟨a, b, ⟨e, n, (dmove_foot poly foot).mp m, r, h, fun _ h0 => by omega⟩, d⟩
  · rintro ⟨a, b, ⟨e, n, m, r, h, -⟩, d⟩
    exact ⟨a, b, ⟨e, n, (dmove_foot poly foot).mpr m, r, h, fun _ (h0 : s.circ = 0) => by omega⟩, d⟩

/-- a robot that covers the cell of its centre and the cell above -/
def tallFoot (p : ℚ × ℚ × ℚ) : List (Int × Int) := [(⌊p.1⌋, ⌊p.2.1⌋), (⌊p.1⌋, ⌊p.2.1⌋ + 1)]

/-- its environment: the cell (1, 1) is an obstacle, and the cell (1, 0) below it is between the circumscribed and the inscribed threshold -/
def tall : Setup :=
  { W := 3, H := 2, T := 4, cs := 1, obs := 10, inscr := 8, circ := 5, poly := true, foot := tallFoot, prims := [],
    map := fun i => if i = 4 then 10 else if i = 1 then 6 else 0, start := (0, 0, 0), goal := (2, 0, 0) }

theorem tall_init : ∃ st, Hist (setup tall 1 1) [] st := by
  obtain ⟨st, h⟩ := (default_init_total (s := tall) (vel := 1) (tt := 1) (by decide)).mpr
    ⟨by simp [InRange, XSpec.InMap, tall], by simp [InRange, XSpec.InMap, tall]⟩
  exact ⟨st, (default_hist (by decide) (by decide)).mpr ⟨by simp, st, h, rfl⟩⟩

theorem tall_edge : DEdge tall 1 1 (costs tall []) (0, 0, 0) (1, 0, 0) 7000 := by
  refine ⟨⟨by simp [InRange, XSpec.InMap, tall], by decide⟩, ⟨by decide, by decide, by decide⟩, ⟨0, 1000, ?_, ⟨by decide, by decide, 0, by decide⟩, by decide, by decide⟩, by decide⟩
  refine .go 0 (by decide) (by decide) (by decide) ?_ ?_
  · have : ((0 : Int) : ℚ) * (2 * Utils.PI_CONST / tall.T) = 0 := by simp
    rw [this]
    exact step_east
  · intro n
    have : ((1000 * tall.cs / 1 : ℚ) : ℝ) * Real.sqrt (((1 : Int) * 1 + 0 * 0 : Int) : ℝ) = 1000 := by
      norm_num [tall]
    show 1000 ≤ n ↔ ((1000 * tall.cs / 1 : ℚ) : ℝ) * Real.sqrt (((1 : Int) * 1 + 0 * 0 : Int) : ℝ) ≤ n
    rw [this]
    norm_cast

/-- **C182** The expectation that reported transitions are collision-free for the given footprint (C50) is false without motion primitives: a successor of the start is reported at which the
robot covers an obstacle cell, although the cell of its centre is above the circumscribed threshold, as it has to be, so that the footprint is to be checked. -/
theorem collision_reported : ∃ st st' l j a, Hist (setup tall 1 1) [] st ∧ st.getCoord st.startId = .ok (0, 0, 0) ∧ st.getSuccs st.startId = .ok (st', l) ∧ (j, 7000, a) ∈ l ∧
    st'.getCoord j = .ok (1, 0, 0) ∧ tall.circ ≤ costs tall [] 1 0 ∧ costs tall [] 1 0 < tall.inscr ∧
    (1, 1) ∈ tall.foot (1 + 1 / 2, 0 + 1 / 2, 0) ∧ tall.obs ≤ costs tall [] 1 1 := by
  obtain ⟨st, h⟩ := tall_init
  obtain ⟨iv, -, es, eg⟩ := hist_inv h
  have hs : st.getCoord st.startId = .ok (0, 0, 0) := by
    unfold getCoord
    rw [iv.startC, es]
    rfl
  have hg : st.getCoord st.goalId = .ok (2, 0, 0) := by
    unfold getCoord
    rw [iv.goalC, eg]
    rfl
  have hne : st.startId ≠ st.goalId := by
    intro e
    rw [e, hg] at hs
    cases hs
  obtain ⟨st', l, h1, -, h2⟩ := default_succs (s := tall) (vel := 1) (tt := 1) (by decide) h hs hne
  obtain ⟨j, a, hj, hq⟩ := (h2 _ _).mpr tall_edge
  refine ⟨st, st', l, j, a, h, hs, h1, hj, hq, by decide, by decide, ?_, by decide⟩
  show (1, 1) ∈ tallFoot _
  unfold tallFoot
  have e1 : ⌊(1 + 1 / 2 : ℚ)⌋ = 1 := by norm_num [Int.floor_eq_iff]
  have e2 : ⌊(0 + 1 / 2 : ℚ)⌋ = 0 := by norm_num [Int.floor_eq_iff]
  simp only [e1, e2]
  decide

/-! ## Poses -/

/-- **C183** ConvertStateIDPathintoXYThetaPath without motion primitives: the result has no poses, for every path that can be converted (every connected one, see C135). -/
theorem no_poses {l : List Nat} {st' : XEnv} {poses : List (ℚ × ℚ × ℚ)} (hr : convertPath (setup s vel tt) st l = .ok (st', poses)) : poses = [] := by
  have none : ∀ t i, intermPts (setup s vel tt) t i = [] := by
    intro t i
    unfold intermPts
    split
    next => rfl
    next m hm =>
      have := List.mem_of_getElem? hm
      obtain ⟨t, i, -, -, -, rfl⟩ := mem_prims.mp (List.mem_filter.mp this).1
      rfl
  induction l generalizing st st' poses with
  | nil => simp only [convertPath] at hr; cases hr; rfl
  | cons a l ih =>
    cases l with
    | nil => simp only [convertPath] at hr; cases hr; rfl
    | cons b l =>
      simp only [convertPath] at hr
      split at hr
      next => cases hr
      next st1 r h1 =>
        split at hr
        next => cases hr
        next e he =>
          split at hr
          next => cases hr
          next k hk =>
            split at hr
            next => cases hr
            next st2 ps h2 =>
              cases hr
              rw [ih h2]
              unfold piece
              rw [none]
              rfl

/-- the expectation that the result leads from the start of the path to its end (C135, C136) is false: a connected path of two states, for which it is empty -/
theorem path_lost : ∃ st j st', Hist (setup tall 1 1) [.getSuccs st.startId] st ∧ Connected st [st.startId, j] ∧ st.getCoord j = .ok (1, 0, 0) ∧
    convertPath (setup tall 1 1) st [st.startId, j] = .ok (st', []) := by
  obtain ⟨st0, st, l, j, a, h, hs, h1, hj, hq, -⟩ := collision_reported
  obtain ⟨h', hc, hp⟩ := succs_hist h h1
  have i := (hist_inv h).1
  have e1 : st.startId = st0.startId := by
    obtain ⟨_, -, f, -⟩ : ∃ x : Unit, True ∧ st.startId = st0.startId ∧ True := by
      obtain ⟨-, e⟩ := succsBy_ext i (succAct_inRange i.stc) h1
      exact ⟨(), trivial, e.startId, trivial⟩
    exact f
  have hs' := hp _ _ hs
  have hC : Connected st [st.startId, j] := by
    rw [e1]
    refine connected_of_lpath h' (ks := [(0, 0, 0), (1, 0, 0)]) (n := 7000) ?_ ?_ ?_
    · simp only [List.map_cons, List.map_nil]
      rw [hs', hq]
    · obtain ⟨m, e⟩ := (default_edge (s := tall) (vel := 1) (tt := 1) (by decide) (by decide)).mpr tall_edge
      exact .cons m (hc.symm ▸ e) (.single _)
    · obtain ⟨iv, -, -, eg⟩ := hist_inv h'
      have hg : st.getCoord st.goalId = .ok (2, 0, 0) := by
        unfold getCoord
        rw [iv.goalC, eg]
        rfl
      intro hm
      have : st.goalId = st0.startId := by simpa using hm
      rw [this, hs'] at hg
      cases hg
  obtain ⟨⟨st', ps, hr⟩, -⟩ : (∃ st' ps, convertPath (setup tall 1 1) st [st.startId, j] = .ok (st', ps)) ∧ True :=
    ⟨(convert_total h' (l := [st.startId, j]) (by
      intro id hid
      rcases List.mem_pair.mp hid with rfl | rfl
      · exact ⟨_, e1 ▸ hs'⟩
      · exact ⟨_, hq⟩)).1.mpr hC, trivial⟩
  have := no_poses hr
  subst this
  exact ⟨st, j, st', e1 ▸ h', hC, hq, hr⟩

/-! ## Initialisation from a map file -/

/-- **C183** InitializeEnv from a map file without a file of primitives: the cells of the start and the goal are those of the file, but the headings are the values of two members before the
call, whatever the file says.  It succeeds exactly if the cells are in the map and these values are headings. -/
theorem file_headings {foot : ℚ → ℚ × ℚ × ℚ → List (Int × Int)} {poly : Bool} {a b : Int} {map : Scan.Text} {f : XFile} {rest : Scan.Text} (hf : Scan.readXYT map = .ok (f, rest))
    (hT : f.T ≤ 128) :
    ((∃ st, initFile foot poly a b map = .ok st) ↔ (0 ≤ f.start.1 ∧ f.start.1 < f.W ∧ 0 ≤ f.start.2 ∧ f.start.2 < f.H ∧ 0 ≤ a ∧ a < f.T) ∧
      (0 ≤ f.goal.1 ∧ f.goal.1 < f.W ∧ 0 ≤ f.goal.2 ∧ f.goal.2 < f.H ∧ 0 ≤ b ∧ b < f.T)) ∧
    ∀ st, initFile foot poly a b map = .ok st → st.getCoord st.startId = .ok (f.start.1, f.start.2, a) ∧ st.getCoord st.goalId = .ok (f.goal.1, f.goal.2, b) := by
  have e : ∀ st, initFile foot poly a b map = .ok st ↔
      XDfl.init { XInit.setupOf foot poly f [] with start := (f.start.1, f.start.2, a), goal := (f.goal.1, f.goal.2, b) } f.vel f.tt = .ok st := by
    intro st
    unfold initFile
    rw [hf]
    dsimp only
    split <;> rename_i h <;> rw [h] <;> simp
  constructor
  · simp only [e]
    rw [default_init_total (by show f.T.toNat ≤ 128; omega)]
    show (((0 ≤ f.start.1 ∧ f.start.1 < f.W ∧ 0 ≤ f.start.2 ∧ f.start.2 < f.H) ∧ 0 ≤ a ∧ a < (f.T.toNat : Int)) ∧
      ((0 ≤ f.goal.1 ∧ f.goal.1 < f.W ∧ 0 ≤ f.goal.2 ∧ f.goal.2 < f.H) ∧ 0 ≤ b ∧ b < (f.T.toNat : Int))) ↔ _
    omega
  · intro st h
    rw [e] at h
    have r := (default_init_total (by show f.T.toNat ≤ 128; omega)).mp ⟨st, h⟩
    have h1 : 1 ≤ f.T.toNat := by
      have : (0 : Int) ≤ a ∧ a < (f.T.toNat : Int) := r.1.2
      omega
    have H := (default_hist (s := { XInit.setupOf foot poly f [] with start := (f.start.1, f.start.2, a), goal := (f.goal.1, f.goal.2, b) }) (ops := [])
      h1 (by show f.T.toNat ≤ 128; omega)).mpr ⟨by simp, st, h, rfl⟩
    obtain ⟨iv, -, es, eg⟩ := hist_inv H
    unfold getCoord
    rw [iv.startC, es, iv.goalC, eg]
    exact ⟨rfl, rfl⟩

/-- **C183** A file of motion primitives that lists no primitive: if the map is given as a file, no state has a successor; if it is given as arguments, the built-in actions are used
(`XInitProps.args_init`). -/
theorem empty_file {foot : ℚ → ℚ × ℚ × ℚ → List (Int × Int)} {poly : Bool} {map txt : Scan.Text} {f : XFile} {rest rest' : Scan.Text} (hf : Scan.readXYT map = .ok (f, rest))
    (hT : f.T ≤ 128) (hp : Scan.readPrims f.cs f.T.toNat txt = .ok (some [], rest')) {st : XEnv} (h : XInit.initFiles foot poly map txt = .ok st) {id : Nat} {k : XKey}
    (hk : st.getCoord id = .ok k) : ∃ st', st.getSuccs id = .ok (st', []) := by
  have hi : XEnv.init (XInit.setupOf foot poly f []) = .ok st := by
    unfold XInit.initFiles at h
    rw [hf] at h
    dsimp only at h
    rw [hp] at h
    simp only [List.map_nil] at h
    split_ifs at h
    split at h
    next => cases h
    next st' e => cases h; exact e
  have H : Hist (XInit.setupOf foot poly f []) [] st := ⟨⟨by show f.T.toNat ≤ 128; omega, fun m hm => by cases hm⟩, by simp, st, hi, rfl⟩
  by_cases hg : id = st.goalId
  · exact ⟨_, by rw [hg]; exact (goal_absorbing st).1⟩
  · obtain ⟨st', l, e, -, -, -, -, -, hin⟩ := succs_exact H hk hg
    cases l with
    | nil => exact ⟨st', e⟩
    | cons x l =>
      have := (hin x List.mem_cons_self).1
      exact absurd this (by show ¬ _ < 0; omega)

end Sbpl.XDflProps
