import Verif.Props.Nav2DAgainEx
/-!
# C206 (and C198): a grid map after a rejected call of InitializeEnv

Companion of C198: if neither width nor height of the rejected map is larger, GetSuccs reads inside the array only.
-/

namespace Sbpl.Nav2DProps
open Sbpl Nav2D NavObj Scan GridSpec StateTable

/-- the map that the array holds, with the threshold of the configuration -/
def arrayCfg (m : NavMem) : NavCfg := { m.nav.cfg with W := m.aw, H := m.ah }

theorem cell_array (m : NavMem) (x y : Int) : m.cell x y = (arrayCfg m).cell x y := rfl

theorem costMult_array (m : NavMem) (x y : Int) (a : Act) (b : Nat) : m.costMult x y a b = (arrayCfg m).costMult x y a b := by
  unfold NavMem.costMult NavCfg.costMult
  simp only [cell_array]
  split
  · rfl
  · split <;> rfl

theorem succAct_shrunk {m : NavMem} {x y : Int} {a : Act} (ha : a ∈ navActs) (hin : InMap m.aw m.ah x y)
    (hW : m.nav.cfg.W ≤ m.aw) (hH : m.nav.cfg.H ≤ m.ah) :
    m.succAct x y a = .ok (if m.nav.cfg.within (x + a.dx) (y + a.dy) = true then (arrayCfg m).succG x y a else none) := by
  by_cases hw : m.nav.cfg.within (x + a.dx) (y + a.dy) = true
  · rw [if_pos hw]
    have ht : InMap (arrayCfg m).W (arrayCfg m).H (x + a.dx) (y + a.dy) := by
      have := NavCfg.within_iff.mp hw
      show InMap m.aw m.ah _ _
      unfold InMap at *
      omega
    have hin' : InMap (arrayCfg m).W (arrayCfg m).H x y := hin
    have tl : m.succTail x y a = .ok ((arrayCfg m).succG x y a) := by
      unfold NavMem.succTail
      rw [cell_array, NavCfg.cell_ok ht]
      simp only [costMult_array, NavCfg.costMult_ok (NavCfg.extras_within ha hin' ht)]
      unfold NavCfg.succG
      have hob : m.nav.cfg.obs = (arrayCfg m).obs := rfl
      rw [hob]
      split
      · next h => rw [if_neg (fun h2 => by omega)]
      · next h => rw [if_pos ⟨NavCfg.within_iff.mpr ht, by omega⟩]
    unfold NavMem.succAct
    split
    · unfold NavMem.valid
      rw [if_pos hw, cell_array, NavCfg.cell_ok ht]
      by_cases hv : (arrayCfg m).grid (x + a.dx) (y + a.dy) < m.nav.cfg.obs
      · simp only [hv, decide_true]; exact tl
      · simp only [hv, decide_false]
        have hm : ¬((arrayCfg m).foldMax x y a.extras ((arrayCfg m).grid (x + a.dx) (y + a.dy)) < m.nav.cfg.obs) := by
          intro h
          have := (NavCfg.foldMax_le (c := arrayCfg m) (x := x) (y := y) (l := a.extras)).mp
            (Nat.le_refl ((arrayCfg m).foldMax x y a.extras ((arrayCfg m).grid (x + a.dx) (y + a.dy))))
          omega
        unfold NavCfg.succG
        rw [if_neg (fun h => hm h.2)]
    · exact tl
  · rw [if_neg hw]
    have htb : m.nav.cfg.testBounds x y = true := by
      cases q : m.nav.cfg.testBounds x y with
      | true => rfl
      | false =>
        exfalso
        apply hw
        apply NavCfg.within_iff.mpr
        apply NavCfg.target_within ha _ q
        unfold NavCfg.testBounds at q
        rw [decide_eq_false_iff_not] at q
        unfold InMap
        omega
    unfold NavMem.succAct NavMem.valid
    rw [if_pos htb, if_neg hw]

/-- **C206** Take any object, a call of InitializeEnv that succeeds, any calls on the environment, and then a call of
InitializeEnv whose start is outside its map, the map being neither wider nor higher than the old one.  Then GetSuccs of a state
of the old map other than the goal still reads inside the array only, and lists exactly the moves of the OLD map that are
passable for the threshold of the rejected call and end inside the rejected map, at their old costs. -/
theorem nav_rejected_smaller {ops : List NavObj.Op} {o : NavObj} {k : NavArgs ⊕ Option Text} {xs : List NavOp} {m m' : NavMem}
    {a : NavArgs} (ho : o = NavObj.run NavObj.new ops)
    (h : (initBy o k).2 = .ok ()) (he : (NavObj.step (initBy o k).1 (.use xs)).env = some m) (hs : ¬ InMap a.W a.H a.start.1 a.start.2)
    (he' : (initArgs (NavObj.step (initBy o k).1 (.use xs)) a).1.env = some m') (hW : a.W ≤ m.nav.cfg.W) (hH : a.H ≤ m.nav.cfg.H)
    {id : Nat} {p : Int × Int} (hg : id ≠ m.nav.goalId) (hc : m.nav.getCoord id = .ok p)
    (hin : InMap m.nav.cfg.W m.nav.cfg.H p.1 p.2) :
    ∃ is16 st' l, m.nav.cfg.dirs = dirsOf is16 ∧ m'.getSuccs id = .ok (st', l) ∧ ∀ q n, (∃ i, (i, n) ∈ l ∧ st'.getCoord i = .ok q) ↔
      (Edge m.nav.cfg.W m.nav.cfg.H m.nav.cfg.grid a.obs is16 p q n ∧ InMap a.W a.H q.1 q.2) := by
  obtain ⟨x, y⟩ := p
  obtain ⟨_, m'', e0, e1, e2, e3, e4, e5, e6, e7, e8, e9, e10⟩ := nav_rejected h he hs
  rw [he'] at e0; cases e0
  obtain ⟨st, f1, f2, f3, _⟩ := init_env h
  obtain ⟨_, gi, g1, g2, g3⟩ := use_env f2 f1 he
  obtain ⟨is16, hd⟩ : ∃ is16, m.nav.cfg.dirs = dirsOf is16 := by
    rw [g3, f3, ho]
    rcases reach_dirs ops with r | r
    · exact ⟨false, r⟩
    · exact ⟨true, r⟩
  have hd' : (arrayCfg m').dirs = dirsOf is16 := by
    show m'.nav.cfg.dirs = _
    rw [e7, hd]
  have hin' : InMap (arrayCfg m').W (arrayCfg m').H x y := by
    show InMap m'.aw m'.ah x y
    rw [e1, e2, g1, g2]; exact hin
  have hc' : m'.nav.getCoord id = .ok (x, y) := by
    unfold Nav2D.getCoord at hc ⊢; rw [e3]; exact hc
  have ti : TInv hash m'.nav.tab := by rw [e3]; exact gi.tab
  obtain ⟨st', l, q1, q2, q3, q4⟩ := actLoop_spec (f := m'.succAct x y) m'.nav.cfg.acts m'.nav
    (fun b hb => succAct_shrunk (NavCfg.acts_sub b hb) hin' (by rw [e8, e1, g1]; exact hW) (by rw [e9, e2, g2]; exact hH)) ti
  refine ⟨is16, st', l, hd, ?_, ?_⟩
  · unfold NavMem.getSuccs
    rw [if_neg (by rw [e5]; exact hg), hc']
    exact q1
  · intro q n
    rw [← mem_of_map_eq q4]
    have key := succG_edge (c := arrayCfg m') hd' hin' (k := q) (cost := n)
    have eE : Edge (arrayCfg m').W (arrayCfg m').H (arrayCfg m').grid (arrayCfg m').obs is16 (x, y) q n ↔
        Edge m.nav.cfg.W m.nav.cfg.H m.nav.cfg.grid a.obs is16 (x, y) q n := by
      show Edge m'.aw m'.ah m'.nav.cfg.grid m'.nav.cfg.obs is16 (x, y) q n ↔ _
      rw [e1, e2, g1, g2, e6, e10]
    rw [← eE, ← key]
    have eA : (arrayCfg m').acts = m'.nav.cfg.acts := rfl
    rw [eA, List.mem_filterMap, List.mem_filterMap]
    have wq : ∀ b, (arrayCfg m').succG x y b = some (q, n) → (m'.nav.cfg.within (x + b.dx) (y + b.dy) = true ↔ InMap a.W a.H q.1 q.2) := by
      intro b hb
      unfold NavCfg.succG at hb
      split at hb
      · cases hb; rw [NavCfg.within_iff, e8, e9]
      · cases hb
    constructor
    · rintro ⟨b, hb, hs⟩
      split at hs
      · next hw => exact ⟨⟨b, hb, hs⟩, (wq b hs).mp hw⟩
      · cases hs
    · rintro ⟨⟨b, hb, hs⟩, hq⟩
      exact ⟨b, hb, by rw [if_pos ((wq b hs).mpr hq)]; exact hs⟩

/-- a rejected call with a 2 × 2 map -/
def agSmall : NavArgs := ⟨2, 2, fun _ => 0, (-1, 0), (0, 1), 1⟩

/-- C206: a free 3 × 2 map with the state (2, 0), and a rejected call with a 2 × 2 map: from (2, 0) the cell (1, 0) is listed and
(2, 1) no longer is -/
example : ∃ m m' : NavMem, (NavObj.step (initBy NavObj.new (.inl agArgs)).1 (.use [.getState 2 0])).env = some m ∧
    (initArgs (NavObj.step (initBy NavObj.new (.inl agArgs)).1 (.use [.getState 2 0])) agSmall).1.env = some m' ∧
    ∃ is16 st' l, m'.getSuccs 2 = .ok (st', l) ∧ (∃ i, (i, 1000) ∈ l ∧ st'.getCoord i = .ok (1, 0)) ∧
      ¬ (∃ i n, (i, n) ∈ l ∧ st'.getCoord i = .ok (2, 1)) ∧ Edge 3 2 (fun _ _ => 0) 1 is16 (2, 0) (1, 0) 1000 := by
  have hs : ¬ InMap agSmall.W agSmall.H agSmall.start.1 agSmall.start.2 := by unfold InMap agSmall; decide
  obtain ⟨m, he, d1, d2, d3, d4, d5, d6⟩ : ∃ m, (NavObj.step (initBy NavObj.new (.inl agArgs)).1 (.use [.getState 2 0])).env = some m ∧
      m.nav.cfg.W = 3 ∧ m.nav.cfg.H = 2 ∧ m.nav.getCoord 2 = .ok (2, 0) ∧ m.nav.goalId = 1 ∧ m.nav.cfg.grid = (fun _ _ => 0) ∧
      m.nav.cfg.dirs = dirsOf false :=
    ⟨_, rfl, rfl, rfl, by rfl, by rfl, rfl, rfl⟩
  obtain ⟨_, m', e2, -⟩ := nav_rejected ag_ok he hs
  obtain ⟨is16, st', l, r0, r1, r2⟩ := nav_rejected_smaller (ops := []) (p := (2, 0)) (id := 2) rfl ag_ok he hs e2
    (by rw [d1]; decide) (by rw [d2]; decide) (by rw [d4]; decide) d3 (by rw [d1, d2]; unfold InMap; decide)
  rw [d1, d2, d5] at r2
  have ed : Edge 3 2 (fun _ _ => 0) 1 is16 (2, 0) (1, 0) 1000 := by
    have : is16 = false := by
      cases is16 with
      | false => rfl
      | true => rw [d6] at r0; cases r0
    subst this
    exact (succG_edge (c := ⟨3, 2, 1, fun _ _ => 0, 8, (0, 0), (0, 1)⟩) rfl (by unfold InMap; decide)).mp (by decide +kernel)
  refine ⟨m, m', he, e2, is16, st', l, r1, (r2 (1, 0) 1000).mpr ⟨ed, by unfold InMap agSmall; decide⟩, ?_, ed⟩
  rintro ⟨i, n, h1, h2⟩
  have := ((r2 (2, 1) n).mp ⟨i, h1, h2⟩).2
  unfold InMap agSmall at this
  revert this
  decide

/-- **C198** The same with a higher map: GetSuccs of a state in the last row of the old map (other than the goal, and not in the last column of the rejected map or beyond) reads outside the array. -/
theorem nav_rejected_oob_higher {ops : List NavObj.Op} {o : NavObj} {k : NavArgs ⊕ Option Text} {xs : List NavOp} {m m' : NavMem} {a : NavArgs} (ho : o = NavObj.run NavObj.new ops)
    (h : (initBy o k).2 = .ok ()) (he : (NavObj.step (initBy o k).1 (.use xs)).env = some m) (hs : ¬ InMap a.W a.H a.start.1 a.start.2)
    (he' : (initArgs (NavObj.step (initBy o k).1 (.use xs)) a).1.env = some m') {id : Nat} {x : Int} (hg : id ≠ m.nav.goalId)
    (hc : m.nav.getCoord id = .ok (x, m.nav.cfg.H - 1)) (hin : InMap m.nav.cfg.W m.nav.cfg.H x (m.nav.cfg.H - 1)) (hH : m.nav.cfg.H < a.H) (hW : x + 1 < a.W) :
    m'.getSuccs id = .error .oob := by
  obtain ⟨_, m'', e0, e1, e2, e3, e4, e5, e6, e7, e8, e9, e10⟩ := nav_rejected h he hs
  rw [he'] at e0; cases e0
  obtain ⟨st, f1, f2, f3, _⟩ := init_env h
  obtain ⟨_, _, g1, g2, g3⟩ := use_env f2 f1 he
  have hacts : ∃ as, m'.nav.cfg.acts = ⟨1, 1, (0, 1), (1, 0), true⟩ :: as := by
    unfold NavCfg.acts
    rw [e7, g3, f3, ho]
    rcases reach_dirs ops with r | r <;> rw [r] <;> exact ⟨_, rfl⟩
  obtain ⟨as, ha⟩ := hacts
  have hcell : ∀ z, m'.cell z (m.nav.cfg.H - 1 + 1) = .error .oob := by
    intro z
    unfold NavMem.cell
    rw [if_neg (by rw [e2, g2]; omega)]
  have hact : m'.succAct x (m.nav.cfg.H - 1) ⟨1, 1, (0, 1), (1, 0), true⟩ = .error .oob := by
    have tl : m'.succTail x (m.nav.cfg.H - 1) ⟨1, 1, (0, 1), (1, 0), true⟩ = .error .oob := by
      unfold NavMem.succTail; simp only [hcell]
    unfold NavMem.succAct
    split
    · have : m'.valid (x + 1) (m.nav.cfg.H - 1 + 1) = .error .oob := by
        unfold NavMem.valid
        obtain ⟨i1, i2, i3, i4⟩ := hin
        rw [if_pos (by unfold NavCfg.within; rw [decide_eq_true_iff, e8, e9]; omega), hcell]
      simp only [this]
    · exact tl
  unfold NavMem.getSuccs
  rw [if_neg (by rw [e5]; exact hg)]
  have hc' : m'.nav.getCoord id = .ok (x, m.nav.cfg.H - 1) := by
    unfold Nav2D.getCoord at hc ⊢; rw [e3]; exact hc
  rw [hc']
  simp only [ha, Nav2D.actLoop, hact]

/-- a rejected call with a 3 × 9 map -/
def agHigh : NavArgs := ⟨3, 9, fun _ => 0, (-1, 0), (0, 1), 1⟩

/-- C198: a free 3 × 2 map with the state (1, 1), and a rejected call with a 3 × 9 map -/
example : ∃ m m' : NavMem, (NavObj.step (initBy NavObj.new (.inl agArgs)).1 (.use [.getState 1 1])).env = some m ∧
    (initArgs (NavObj.step (initBy NavObj.new (.inl agArgs)).1 (.use [.getState 1 1])) agHigh).1.env = some m' ∧
    (∃ r, m.getSuccs 2 = .ok r) ∧ m'.getSuccs 2 = .error .oob := by
  have hs : ¬ InMap agHigh.W agHigh.H agHigh.start.1 agHigh.start.2 := by unfold InMap agHigh; decide
  obtain ⟨m, he, d1, d2, d3, d4, d5⟩ : ∃ m, (NavObj.step (initBy NavObj.new (.inl agArgs)).1 (.use [.getState 1 1])).env = some m ∧
      m.nav.cfg.W = 3 ∧ m.nav.cfg.H = 2 ∧ m.nav.getCoord 2 = .ok (1, 1) ∧ m.nav.goalId = 1 ∧ ∃ r, m.getSuccs 2 = .ok r :=
    ⟨_, rfl, rfl, rfl, by rfl, by rfl, _, by rfl⟩
  obtain ⟨_, m', e2, -⟩ := nav_rejected ag_ok he hs
  exact ⟨m, m', he, e2, d5, nav_rejected_oob_higher (ops := []) (x := 1) rfl ag_ok he hs e2 (by rw [d4]; decide) (by rw [d3, d2]; rfl)
    (by rw [d1, d2]; unfold InMap; decide) (by rw [d2]; decide) (by decide)⟩

end Sbpl.Nav2DProps
