import Verif.Props.Nav2DShrink
/-!
# C207: GetPreds after a rejected call of InitializeEnv with a map that is not larger
-/

namespace Sbpl.Nav2DProps
open Sbpl Nav2D NavObj Scan GridSpec StateTable

/-- what one action of GetPreds yields -/
def predR (m : NavMem) (x y : Int) (a : Act) : Option ((Int × Int) × Nat) :=
  if m.nav.cfg.within (x + a.dx) (y + a.dy) = true ∧ (m.nav.cfg.testBounds x y = true → m.nav.cfg.grid (x + a.dx) (y + a.dy) < m.nav.cfg.obs) ∧
      (arrayCfg m).foldMax x y a.extras (m.nav.cfg.grid x y) < m.nav.cfg.obs then
    some ((x + a.dx, y + a.dy), ((arrayCfg m).foldMax x y a.extras (m.nav.cfg.grid x y) + 1) * a.dist)
  else none

theorem predAct_shrunk {m : NavMem} {x y : Int} {a : Act} (ha : a ∈ navActs) (hin : InMap m.aw m.ah x y)
    (hW : m.nav.cfg.W ≤ m.aw) (hH : m.nav.cfg.H ≤ m.ah) :
    m.predAct x y (m.nav.cfg.grid x y) a = .ok (predR m x y a) := by
  by_cases hw : m.nav.cfg.within (x + a.dx) (y + a.dy) = true
  · have ht : InMap (arrayCfg m).W (arrayCfg m).H (x + a.dx) (y + a.dy) := by
      have := NavCfg.within_iff.mp hw
      show InMap m.aw m.ah _ _
      unfold InMap at *
      omega
    have hin' : InMap (arrayCfg m).W (arrayCfg m).H x y := hin
    have hc : m.costMult x y a (m.nav.cfg.grid x y) = .ok ((arrayCfg m).foldMax x y a.extras (m.nav.cfg.grid x y)) := by
      rw [costMult_array, NavCfg.costMult_ok (NavCfg.extras_within ha hin' ht)]
    have tl : (m.nav.cfg.testBounds x y = true → m.nav.cfg.grid (x + a.dx) (y + a.dy) < m.nav.cfg.obs) →
        m.predTail x y (m.nav.cfg.grid x y) a = .ok (predR m x y a) := by
      intro hb
      unfold NavMem.predTail predR
      rw [hc]
      simp only
      split
      · next h => rw [if_neg (fun h2 => by omega)]
      · next h => rw [if_pos ⟨hw, hb, by omega⟩]
    unfold NavMem.predAct
    split
    · next hb =>
      unfold NavMem.valid
      rw [if_pos hw, cell_array, NavCfg.cell_ok ht]
      have eg : (arrayCfg m).grid (x + a.dx) (y + a.dy) = m.nav.cfg.grid (x + a.dx) (y + a.dy) := rfl
      rw [eg]
      by_cases hv : m.nav.cfg.grid (x + a.dx) (y + a.dy) < m.nav.cfg.obs
      · simp only [hv, decide_true]; exact tl (fun _ => hv)
      · simp only [hv, decide_false]
        unfold predR
        rw [if_neg (fun h => hv (h.2.1 hb))]
    · next hb => exact tl (fun h => absurd h hb)
  · have htb : m.nav.cfg.testBounds x y = true := by
      cases q : m.nav.cfg.testBounds x y with
      | true => rfl
      | false =>
        exfalso
        apply hw
        apply NavCfg.within_iff.mpr
        apply NavCfg.target_within ha _ q
        unfold NavCfg.testBounds at q
        rw [decide_eq_false_iff_not] at q
        unfold InMap
        omega
    unfold NavMem.predAct NavMem.valid predR
    rw [if_pos htb, if_neg hw, if_neg (fun h => hw h.1)]

/-- **C207** Setting of C206.  GetPreds of a state in the old map reads inside the array only, and lists, of the source cells `q`
of the old map that are passable for the threshold of the rejected call, exactly those inside the REJECTED map with a passable
move to it on the OLD map, at the old cost. -/
theorem nav_rejected_smaller_preds {ops : List NavObj.Op} {o : NavObj} {k : NavArgs ⊕ Option Text} {xs : List NavOp} {m m' : NavMem}
    {a : NavArgs} (ho : o = NavObj.run NavObj.new ops)
    (h : (initBy o k).2 = .ok ()) (he : (NavObj.step (initBy o k).1 (.use xs)).env = some m) (hs : ¬ InMap a.W a.H a.start.1 a.start.2)
    (he' : (initArgs (NavObj.step (initBy o k).1 (.use xs)) a).1.env = some m') (hW : a.W ≤ m.nav.cfg.W) (hH : a.H ≤ m.nav.cfg.H)
    {id : Nat} {p : Int × Int} (hc : m.nav.getCoord id = .ok p) (hin : InMap m.nav.cfg.W m.nav.cfg.H p.1 p.2) :
    ∃ is16 st' l, m.nav.cfg.dirs = dirsOf is16 ∧ m'.getPreds id = .ok (st', l) ∧ ∀ q n, InMap m.nav.cfg.W m.nav.cfg.H q.1 q.2 →
      m.nav.cfg.grid q.1 q.2 < a.obs →
      ((∃ i, (i, n) ∈ l ∧ st'.getCoord i = .ok q) ↔
        (Edge m.nav.cfg.W m.nav.cfg.H m.nav.cfg.grid a.obs is16 q p n ∧ InMap a.W a.H q.1 q.2)) := by
  obtain ⟨x, y⟩ := p
  obtain ⟨_, m'', e0, e1, e2, e3, e4, e5, e6, e7, e8, e9, e10⟩ := nav_rejected h he hs
  rw [he'] at e0; cases e0
  obtain ⟨st, f1, f2, f3, _⟩ := init_env h
  obtain ⟨_, gi, g1, g2, g3⟩ := use_env f2 f1 he
  obtain ⟨is16, hd⟩ : ∃ is16, m.nav.cfg.dirs = dirsOf is16 := by
    rw [g3, f3, ho]
    rcases reach_dirs ops with r | r
    · exact ⟨false, r⟩
    · exact ⟨true, r⟩
  have hd' : (arrayCfg m').dirs = dirsOf is16 := by
    show m'.nav.cfg.dirs = _
    rw [e7, hd]
  have hin' : InMap (arrayCfg m').W (arrayCfg m').H x y := by
    show InMap m'.aw m'.ah x y
    rw [e1, e2, g1, g2]; exact hin
  have hc' : m'.nav.getCoord id = .ok (x, y) := by
    unfold Nav2D.getCoord at hc ⊢; rw [e3]; exact hc
  have ti : TInv hash m'.nav.tab := by rw [e3]; exact gi.tab
  have eE : ∀ q n, Edge (arrayCfg m').W (arrayCfg m').H (arrayCfg m').grid (arrayCfg m').obs is16 q (x, y) n ↔
      Edge m.nav.cfg.W m.nav.cfg.H m.nav.cfg.grid a.obs is16 q (x, y) n := by
    intro q n
    show Edge m'.aw m'.ah m'.nav.cfg.grid m'.nav.cfg.obs is16 q (x, y) n ↔ _
    rw [e1, e2, g1, g2, e6, e10]
  -- predecessors on the array
  have dual : ∀ q n, InMap m.nav.cfg.W m.nav.cfg.H q.1 q.2 → m.nav.cfg.grid q.1 q.2 < a.obs →
      ((m'.nav.cfg.grid x y < m'.nav.cfg.obs ∧ (q, n) ∈ (arrayCfg m').acts.filterMap ((arrayCfg m').predG x y)) ↔
        Edge m.nav.cfg.W m.nav.cfg.H m.nav.cfg.grid a.obs is16 q (x, y) n) := by
    intro q n hq hf
    have hq' : InMap (arrayCfg m').W (arrayCfg m').H q.1 q.2 := by
      show InMap m'.aw m'.ah _ _
      rw [e1, e2, g1, g2]; exact hq
    have hf' : (arrayCfg m').grid q.1 q.2 < (arrayCfg m').obs := by
      show m'.nav.cfg.grid _ _ < m'.nav.cfg.obs
      rw [e6, e10]; exact hf
    have d := predG_dual (c := arrayCfg m') hd' hq' (t := (x, y)) hin' (cost := n)
    rw [← eE, ← succG_edge hd' hq']
    exact ⟨fun w => (d.mp ⟨w.1, hf', w.2⟩).2, fun w => ⟨(d.mpr ⟨hf', w⟩).1, (d.mpr ⟨hf', w⟩).2.2⟩⟩
  have ecell : m'.cell x y = .ok (m'.nav.cfg.grid x y) := by
    rw [cell_array, NavCfg.cell_ok hin']; rfl
  by_cases hob : m'.nav.cfg.grid x y ≥ m'.nav.cfg.obs
  · refine ⟨is16, m'.nav, [], hd, ?_, ?_⟩
    · unfold NavMem.getPreds
      rw [hc']
      simp only [ecell]
      rw [if_pos hob]
    · intro q n hq hf
      refine ⟨fun w => ?_, fun w => ?_⟩
      · obtain ⟨i, hi, _⟩ := w; cases hi
      · have := ((dual q n hq hf).mpr w.1).1
        omega
  · obtain ⟨st', l, q1, q2, q3, q4⟩ := actLoop_spec (f := m'.predAct x y (m'.nav.cfg.grid x y)) m'.nav.cfg.acts m'.nav
      (fun b hb => predAct_shrunk (NavCfg.acts_sub b hb) hin' (by rw [e8, e1, g1]; exact hW) (by rw [e9, e2, g2]; exact hH)) ti
    refine ⟨is16, st', l, hd, ?_, ?_⟩
    · unfold NavMem.getPreds
      rw [hc']
      simp only [ecell]
      rw [if_neg hob]
      exact q1
    · intro q n hq hf
      rw [← mem_of_map_eq q4, ← dual q n hq hf]
      have eA : (arrayCfg m').acts = m'.nav.cfg.acts := rfl
      rw [eA, List.mem_filterMap, List.mem_filterMap]
      constructor
      · rintro ⟨b, hb, hs⟩
        unfold predR at hs
        split at hs
        · next hw =>
          cases hs
          refine ⟨⟨by omega, b, hb, ?_⟩, ?_⟩
          · unfold NavCfg.predG
            rw [if_pos]
            · rfl
            · refine ⟨NavCfg.within_iff.mpr ?_, fun _ => ?_, hw.2.2⟩
              · show InMap m'.aw m'.ah _ _
                rw [e1, e2, g1, g2]; exact hq
              · show m'.nav.cfg.grid _ _ < m'.nav.cfg.obs
                rw [e6, e10]; exact hf
          · have := NavCfg.within_iff.mp hw.1
            rw [e8, e9] at this; exact this
        · cases hs
      · rintro ⟨⟨_, b, hb, hs⟩, hqq⟩
        refine ⟨b, hb, ?_⟩
        unfold NavCfg.predG at hs
        split at hs
        · next hw =>
          cases hs
          unfold predR
          rw [if_pos]
          · rfl
          · refine ⟨NavCfg.within_iff.mpr (by rw [e8, e9]; exact hqq), fun _ => ?_, hw.2.2⟩
            rw [e6, e10]; exact hf
        · cases hs

/-- C207: a free 3 × 2 map with the state (2, 0) and a rejected call with a 2 × 2 map: of (2, 0) the predecessor (1, 0) is listed,
and (2, 1) no longer is -/
example : ∃ m m' : NavMem, (NavObj.step (initBy NavObj.new (.inl agArgs)).1 (.use [.getState 2 0])).env = some m ∧
    (initArgs (NavObj.step (initBy NavObj.new (.inl agArgs)).1 (.use [.getState 2 0])) agSmall).1.env = some m' ∧
    ∃ st' l, m'.getPreds 2 = .ok (st', l) ∧ (∃ i, (i, 1000) ∈ l ∧ st'.getCoord i = .ok (1, 0)) ∧
      ¬ (∃ i n, (i, n) ∈ l ∧ st'.getCoord i = .ok (2, 1)) := by
  have hs : ¬ InMap agSmall.W agSmall.H agSmall.start.1 agSmall.start.2 := by unfold InMap agSmall; decide
  obtain ⟨m, he, d1, d2, d3, d5, d6⟩ : ∃ m, (NavObj.step (initBy NavObj.new (.inl agArgs)).1 (.use [.getState 2 0])).env = some m ∧
      m.nav.cfg.W = 3 ∧ m.nav.cfg.H = 2 ∧ m.nav.getCoord 2 = .ok (2, 0) ∧ m.nav.cfg.grid = (fun _ _ => 0) ∧
      m.nav.cfg.dirs = dirsOf false :=
    ⟨_, rfl, rfl, rfl, by rfl, rfl, rfl⟩
  obtain ⟨_, m', e2, -⟩ := nav_rejected ag_ok he hs
  obtain ⟨is16, st', l, r0, r1, r2⟩ := nav_rejected_smaller_preds (ops := []) (p := (2, 0)) (id := 2) rfl ag_ok he hs e2
    (by rw [d1]; decide) (by rw [d2]; decide) d3 (by rw [d1, d2]; unfold InMap; decide)
  rw [d1, d2, d5] at r2
  have : is16 = false := by
    cases is16 with
    | false => rfl
    | true => rw [d6] at r0; cases r0
  subst this
  have ed : Edge 3 2 (fun _ _ => 0) 1 false (1, 0) (2, 0) 1000 :=
    (succG_edge (c := ⟨3, 2, 1, fun _ _ => 0, 8, (0, 0), (0, 1)⟩) rfl (by unfold InMap; decide)).mp (by decide +kernel)
  refine ⟨m, m', he, e2, st', l, r1, (r2 (1, 0) 1000 (by unfold InMap; decide) (by decide)).mpr ⟨ed, by unfold InMap agSmall; decide⟩, ?_⟩
  rintro ⟨i, n, h1, h2⟩
  have := ((r2 (2, 1) n (by unfold InMap; decide) (by decide)).mp ⟨i, h1, h2⟩).2
  unfold InMap agSmall at this
  revert this
  decide

/-- **C207** So GetSuccs and GetPreds no longer agree (C16 is lost): on the free 3 × 2 map, after the rejected call with a 2 × 2
map, GetSuccs of (2, 0) lists (1, 0), but GetPreds of (1, 0) does not list (2, 0). -/
theorem shrunk_disagree : ∃ m m' : NavMem,
    (NavObj.step (initBy NavObj.new (.inl agArgs)).1 (.use [.getState 2 0, .getState 1 0])).env = some m ∧
    (initArgs (NavObj.step (initBy NavObj.new (.inl agArgs)).1 (.use [.getState 2 0, .getState 1 0])) agSmall).1.env = some m' ∧
    m.nav.getCoord 2 = .ok (2, 0) ∧ m.nav.getCoord 3 = .ok (1, 0) ∧
    (∃ st l, m.getSuccs 2 = .ok (st, l) ∧ (3, 1000) ∈ l) ∧ (∃ st l, m.getPreds 3 = .ok (st, l) ∧ (2, 1000) ∈ l) ∧
    (∃ st l, m'.getSuccs 2 = .ok (st, l) ∧ (3, 1000) ∈ l) ∧ (∃ st l, m'.getPreds 3 = .ok (st, l) ∧ ∀ n, (2, n) ∉ l) := by
  refine ⟨_, _, rfl, rfl, by rfl, by rfl, ⟨_, _, by rfl, ?_⟩, ⟨_, _, by rfl, ?_⟩, ⟨_, _, by rfl, ?_⟩, ⟨_, _, by rfl, ?_⟩⟩
  · decide +kernel
  · decide +kernel
  · decide +kernel
  · intro n hn
    have h := List.mem_map_of_mem (f := Prod.fst) hn
    clear hn
    change 2 ∈ _ at h
    revert h
    clear n
    decide +kernel

end Sbpl.Nav2DProps
