import Verif.Proofs.XYTInv
/-! # `EnvironmentNAVXYTHETALAT`: the computed costs are those of the specification -/

namespace Sbpl.XEnv
open StateTable XCfg XSpec UtilsSpec

theorem discXY2Cont_zero (cs : ℚ) : Utils.discXY2Cont 0 cs = cs / 2 := by unfold Utils.discXY2Cont; norm_num

theorem intermFold (cs : ℚ) : ∀ (pts : List (ℚ × ℚ × ℚ)) (r : List (Int × Int) × (Int × Int)), (r.1 = [] ∨ r.2 ∈ r.1) → ∀ q,
    q ∈ (pts.foldl (fun (r : List (Int × Int) × (Int × Int)) p =>
      let q := centreCell cs p
      (if r.1 = [] ∨ q ≠ r.2 then r.1 ++ [q] else r.1, q)) r).1 ↔ q ∈ r.1 ∨ ∃ p ∈ pts, q = centreCell cs p := by
  intro pts
  induction pts with
  | nil => intro r _ q; simp
  | cons p pts ih =>
    intro r hr q
    rw [List.foldl_cons, ih]
    · dsimp only
      split_ifs with h
      · simp [or_assoc]
      · have h' : centreCell cs p ∈ r.1 := by
          rw [not_or, not_not] at h
          rcases hr with hr | hr
          · exact absurd hr h.1
          · rw [h.2]; exact hr
        constructor
        · rintro (a | ⟨x, hx, e⟩)
          · exact .inl a
          · exact .inr ⟨x, by simp [hx], e⟩
        · rintro (a | ⟨x, hx, e⟩)
          · exact .inl a
          · rcases List.mem_cons.mp hx with rfl | hx
            · rw [e]; exact .inl h'
            · exact .inr ⟨x, hx, e⟩
    · dsimp only
      split_ifs with h
      · right; simp
      · rw [not_or, not_not] at h
        rcases hr with hr | hr
        · exact absurd hr h.1
        · right; rw [h.2]; exact hr

theorem mem_intermCells {s : Setup} {m : MPrim} {q : Int × Int} : q ∈ intermCells s.cs m.pts ↔ Centre s m q := by
  unfold intermCells
  rw [intermFold _ _ _ (.inl rfl)]
  unfold Centre
  simp only [List.not_mem_nil, false_or, centreCell, discXY2Cont_zero]
  constructor
  · rintro ⟨p, hp, e⟩; exact ⟨p, hp, by rw [e], by rw [e]⟩
  · rintro ⟨p, hp, e1, e2⟩; exact ⟨p, hp, Prod.ext e1 e2⟩

theorem mem_motionCells_by {foot : ℚ × ℚ × ℚ → List (Int × Int)} {poses : List (ℚ × ℚ × ℚ)} {q : Int × Int} :
    q ∈ motionCells foot poses ↔ SweptBy foot poses q := by
  unfold SweptBy
  cases poses with
  | nil => simp [motionCells]
  | cons p ps =>
    unfold motionCells
    rw [List.mem_filter, decide_eq_true_iff, List.mem_flatMap]
    constructor
    · rintro ⟨⟨x, hx, h1⟩, h2⟩
      refine ⟨p, ps, rfl, h2, x, ?_, h1⟩
      rcases List.mem_cons.mp hx with rfl | hx
      · exact absurd h1 h2
      · exact hx
    · rintro ⟨p0, ps', e, h2, x, hx, h1⟩
      cases e
      exact ⟨⟨x, by simp [hx], h1⟩, h2⟩

theorem mem_motionCells {s : Setup} {m : MPrim} {q : Int × Int} : q ∈ motionCells s.foot m.poses ↔ Swept s m q := mem_motionCells_by

theorem scan_some {c : XCfg} {sx sy : Int} : ∀ {l : List (Int × Int)} {m v : Nat}, c.scan sx sy l m = some v →
    (∀ q ∈ l, c.within (q.1 + sx) (q.2 + sy) = true ∧ c.grid (q.1 + sx) (q.2 + sy) < c.inscr ∧ c.grid (q.1 + sx) (q.2 + sy) ≤ v) ∧ m ≤ v ∧
    (v = m ∨ ∃ q ∈ l, c.grid (q.1 + sx) (q.2 + sy) = v) := by
  intro l
  induction l with
  | nil => intro m v h; simp only [scan] at h; cases h; simp
  | cons a l ih =>
    intro m v h
    simp only [scan] at h
    split_ifs at h with h1 h2
    obtain ⟨g1, g2, g3⟩ := ih h
    rw [ge_iff_le, not_le] at h2
    have ha := Nat.le_max_right m (c.grid (a.1 + sx) (a.2 + sy))
    have hm := Nat.le_max_left m (c.grid (a.1 + sx) (a.2 + sy))
    refine ⟨?_, by omega, ?_⟩
    · intro q hq
      rcases List.mem_cons.mp hq with rfl | hq
      · exact ⟨by simpa using h1, by omega, by omega⟩
      · exact g1 q hq
    · rcases g3 with g3 | ⟨q, hq, g3⟩
      · rcases Nat.le_total m (c.grid (a.1 + sx) (a.2 + sy)) with k | k
        · rw [Nat.max_eq_right k] at g3; exact .inr ⟨a, by simp, g3.symm⟩
        · rw [Nat.max_eq_left k] at g3; exact .inl g3
      · exact .inr ⟨q, by simp [hq], g3⟩

theorem scan_ok {c : XCfg} {sx sy : Int} : ∀ {l : List (Int × Int)} {m : Nat}, (m = 0 ∨ m < c.inscr) →
    (∀ q ∈ l, c.within (q.1 + sx) (q.2 + sy) = true ∧ c.grid (q.1 + sx) (q.2 + sy) < c.inscr) → ∃ v, c.scan sx sy l m = some v := by
  intro l
  induction l with
  | nil => intro m _ _; exact ⟨m, rfl⟩
  | cons a l ih =>
    intro m hm h
    obtain ⟨h1, h2⟩ := h a (by simp)
    simp only [scan]
    rw [if_neg (by simp [h1])]
    have : max m (c.grid (a.1 + sx) (a.2 + sy)) < c.inscr := by omega
    rw [if_neg (by omega)]
    exact ih (.inr this) (fun q hq => h q (by simp [hq]))

theorem Static.within {s : Setup} {c : XCfg} (h : Static s c) {x y : Int} : c.within x y = true ↔ InMap s (x, y) := by
  rw [within_iff, h.W, h.H]; rfl

theorem Static.valid {s : Setup} {c : XCfg} (h : Static s c) {x y : Int} : c.valid x y = true ↔ InMap s (x, y) ∧ c.grid x y < s.obs := by
  unfold XCfg.valid; rw [Bool.and_eq_true, h.within, decide_eq_true_iff, h.obs]

theorem maxCost_unique {grid : Int → Int → Nat} {S : Int × Int → Prop} {a b : Nat} (ha : MaxCost grid S a) (hb : MaxCost grid S b) : a = b := by
  have half : ∀ {a b : Nat}, MaxCost grid S a → MaxCost grid S b → a ≤ b := by
    rintro a b ⟨-, h2⟩ ⟨g1, -⟩
    rcases h2 with h | ⟨q, h, e⟩
    · omega
    · have := g1 q h; omega
  exact Nat.le_antisymm (half ha hb) (half hb ha)

/-- the cost of an action, and when it is finite -/
theorem succAct_iff {s : Setup} {c : XCfg} (h : Static s c) (ok : SetupOk s) {m : MPrim} {i : Nat} {p q : XKey} {n : Nat}
    (hm : m ∈ s.prims) (hh : m.startTheta = p.2.2) :
    c.succAct p (mkAct s.cs s.foot i m) = some (q, n) ↔ Edge s c.grid m p q n := by
  have pr := ok.prims m hm
  have eX : (mkAct s.cs s.foot i m).dX = m.dX := toChar_id pr.1 pr.2.1
  have eY : (mkAct s.cs s.foot i m).dY = m.dY := toChar_id pr.2.2.1 pr.2.2.2.1
  have eT : (mkAct s.cs s.foot i m).endTheta = m.endTheta := toChar_id pr.2.2.2.2.1 pr.2.2.2.2.2
  have eC : (mkAct s.cs s.foot i m).cost = m.cost := rfl
  have hT : (0 : Int) < s.T := by exact_mod_cast h.T0
  have hres := UtilsProps.normDiscTheta_residue m.endTheta hT
  have hcent : ∀ r, r ∈ (mkAct s.cs s.foot i m).interm ↔ Centre s m r := fun r => mem_intermCells
  have hswept : ∀ r, r ∈ (mkAct s.cs s.foot i m).inter ↔ Swept s m r := fun r => mem_motionCells
  generalize mkAct s.cs s.foot i m = a at *
  have tgt : c.target p a = (p.1 + m.dX, p.2.1 + m.dY, Utils.normDiscTheta m.endTheta s.T) := by
    unfold target; rw [eX, eY, eT, h.T]
  unfold succAct actionCost
  rw [tgt, eX, eY, eC]
  constructor
  · intro hs
    have h1' : c.valid (p.1 + m.dX) (p.2.1 + m.dY) = true := by
      by_contra hc
      rw [Bool.not_eq_true] at hc
      rw [if_pos hc] at hs; cases hs
    obtain ⟨d1, d2⟩ := h.valid.mp h1'
    have h1 : ¬ c.valid (p.1 + m.dX) (p.2.1 + m.dY) = false := by simp [h1']
    simp only [if_neg h1] at hs
    by_cases k1 : c.valid p.1 p.2.1 = false
    · simp [k1] at hs
    by_cases k2 : c.grid (p.1 + m.dX) (p.2.1 + m.dY) ≥ c.inscr
    · simp [k1, k2] at hs
    · simp only [if_neg k1, if_neg k2] at hs
      have k1' : c.valid p.1 p.2.1 = true := by simpa using k1
      obtain ⟨s1, s2⟩ := h.valid.mp k1'
      rw [ge_iff_le, not_le, h.inscr] at k2
      cases hsc : c.scan p.1 p.2.1 a.interm 0 with
      | none => simp [hsc] at hs
      | some v =>
        simp only [hsc] at hs
        obtain ⟨g1, -, g3⟩ := scan_some hsc
        by_cases k3 : (c.poly && decide (v ≥ c.circ) && a.inter.any (fun q => !c.valid (q.1 + p.1) (q.2 + p.2.1))) = true
        · simp only [if_pos k3] at hs; simp at hs
        · simp only [if_neg k3] at hs
          split_ifs at hs with h2
          cases hs
          have hcv : MaxCost c.grid (fun z => ∃ r, Centre s m r ∧ z = shift p r) v := by
            constructor
            · rintro _ ⟨r, hr, rfl⟩; exact (g1 r ((hcent r).mpr hr)).2.2
            · rcases g3 with g3 | ⟨r, hr, g3⟩
              · exact .inl g3
              · exact .inr ⟨_, ⟨r, (hcent r).mp hr, rfl⟩, g3⟩
          refine ⟨hm, hh, rfl, rfl, hres, ⟨s1, s2⟩, ⟨d1, d2, k2⟩, ?_, ?_, ?_, ?_⟩
          · intro r hr
            obtain ⟨a1, a2, -⟩ := g1 r ((hcent r).mpr hr)
            rw [h.inscr] at a2
            exact ⟨h.within.mp a1, a2⟩
          · intro hp hv r hr
            have hcirc := hv v hcv
            rw [h.poly, h.circ, hp, Bool.true_and, Bool.and_eq_true, not_and, decide_eq_true_iff] at k3
            have := k3 hcirc
            rw [Bool.not_eq_true, List.any_eq_false] at this
            have := this r ((hswept r).mpr hr)
            exact h.valid.mp (by simpa using this)
          · refine ⟨_, ⟨?_, ?_⟩, rfl⟩
            · rintro z (rfl | rfl | hz)
              · exact Nat.le_trans (Nat.le_max_right _ _) (Nat.le_max_left _ _)
              · exact Nat.le_max_right _ _
              · exact Nat.le_trans (hcv.1 z hz) (Nat.le_trans (Nat.le_max_left _ _) (Nat.le_max_left _ _))
            · have : ∀ x y z : Nat, max (max x y) z = x ∨ max (max x y) z = y ∨ max (max x y) z = z := by intros; omega
              rcases this v (c.grid p.1 p.2.1) (c.grid (p.1 + m.dX) (p.2.1 + m.dY)) with e | e | e
              · rw [e]
                rcases hcv.2 with z | ⟨z, hz, ez⟩
                · exact .inl z
                · exact .inr ⟨z, .inr (.inr hz), ez⟩
              · rw [e]; exact .inr ⟨_, .inl rfl, rfl⟩
              · rw [e]; exact .inr ⟨_, .inr (.inl rfl), rfl⟩
          · exact Nat.lt_of_not_le h2
  · intro e
    obtain ⟨-, -, x1, y1, t1, ⟨s1, s2⟩, ⟨d1, d2, d3⟩, hce, hsw, ⟨v, hv, hn⟩, hfin⟩ := e
    have tq : q = (p.1 + m.dX, p.2.1 + m.dY, Utils.normDiscTheta m.endTheta s.T) :=
      Prod.ext x1 (Prod.ext y1 (UtilsProps.residue_unique t1 hres))
    subst tq
    dsimp only at d1 d2 d3 hv
    have a1 : c.valid (p.1 + m.dX) (p.2.1 + m.dY) = true := h.valid.mpr ⟨d1, d2⟩
    have a2 : c.valid p.1 p.2.1 = true := h.valid.mpr ⟨s1, s2⟩
    obtain ⟨w, hw⟩ := scan_ok (c := c) (sx := p.1) (sy := p.2.1) (l := a.interm) (m := 0) (.inl rfl) (by
      intro r hr
      obtain ⟨b1, b2⟩ := hce r ((hcent r).mp hr)
      rw [h.inscr]
      exact ⟨h.within.mpr b1, b2⟩)
    obtain ⟨g1, -, g3⟩ := scan_some hw
    have hcw : MaxCost c.grid (fun z => ∃ r, Centre s m r ∧ z = shift p r) w := by
      constructor
      · rintro _ ⟨r, hr, rfl⟩; exact (g1 r ((hcent r).mpr hr)).2.2
      · rcases g3 with g3 | ⟨r, hr, g3⟩
        · exact .inl g3
        · exact .inr ⟨_, ⟨r, (hcent r).mp hr, rfl⟩, g3⟩
    have hv' : MaxCost c.grid (fun z => z = (p.1, p.2.1) ∨ z = (p.1 + m.dX, p.2.1 + m.dY) ∨ ∃ r, Centre s m r ∧ z = shift p r)
        (max (max w (c.grid p.1 p.2.1)) (c.grid (p.1 + m.dX) (p.2.1 + m.dY))) := by
      constructor
      · rintro z (rfl | rfl | hz)
        · exact Nat.le_trans (Nat.le_max_right _ _) (Nat.le_max_left _ _)
        · exact Nat.le_max_right _ _
        · exact Nat.le_trans (hcw.1 z hz) (Nat.le_trans (Nat.le_max_left _ _) (Nat.le_max_left _ _))
      · have : ∀ x y z : Nat, max (max x y) z = x ∨ max (max x y) z = y ∨ max (max x y) z = z := by intros; omega
        rcases this w (c.grid p.1 p.2.1) (c.grid (p.1 + m.dX) (p.2.1 + m.dY)) with e | e | e
        · rw [e]
          rcases hcw.2 with z | ⟨z, hz, ez⟩
          · exact .inl z
          · exact .inr ⟨z, .inr (.inr hz), ez⟩
        · rw [e]; exact .inr ⟨_, .inl rfl, rfl⟩
        · rw [e]; exact .inr ⟨_, .inr (.inl rfl), rfl⟩
    have hvv := maxCost_unique hv hv'
    have k3 : ¬ (c.poly && decide (w ≥ c.circ) && a.inter.any (fun q => !c.valid (q.1 + p.1) (q.2 + p.2.1))) = true := by
      rw [Bool.and_eq_true, Bool.and_eq_true, decide_eq_true_iff, h.poly, h.circ]
      rintro ⟨⟨hp, hc⟩, hany⟩
      obtain ⟨r, hr, hbad⟩ := List.any_eq_true.mp hany
      have := hsw hp (fun u hu => by rw [maxCost_unique hu hcw]; exact hc) r ((hswept r).mp hr)
      rw [h.valid.mpr this] at hbad
      cases hbad
    have f1 : ¬ c.valid (p.1 + m.dX) (p.2.1 + m.dY) = false := by simp [a1]
    have f2 : ¬ c.valid p.1 p.2.1 = false := by simp [a2]
    have f3 : ¬ c.grid (p.1 + m.dX) (p.2.1 + m.dY) ≥ c.inscr := by rw [h.inscr]; omega
    simp only [if_neg f1, if_neg f2, if_neg f3, hw, if_neg k3]
    rw [← hvv, ← hn, if_neg (by omega)]

end Sbpl.XEnv
