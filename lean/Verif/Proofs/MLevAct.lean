import Verif.Proofs.MLevEdge
/-! # `EnvironmentNAVXYTHETAMLEVLAT`: an action is a transition of the specification -/

namespace Sbpl.MEnv
open XEnv XCfg XSpec

/-- the cells swept at a level are those of the primitives -/
def LStatic (s : Setup) (l : MLev) : Prop :=
  ∀ t i m, (s.prims.filter (fun m => decide (m.startTheta = t)))[i]? = some m → l.inter t i = motionCells l.inp.foot m.pts

theorem scan_max {s : Setup} {c : XCfg} {m : MPrim} {p : XKey} {v : Nat} (h : c.scan p.1 p.2.1 (intermCells s.cs m.pts) 0 = some v) :
    MaxCost c.grid (Visited s m p) v := by
  obtain ⟨g1, -, g3⟩ := scan_some h
  constructor
  · rintro _ ⟨r, hr, rfl⟩; exact (g1 r (mem_intermCells.mpr hr)).2.2
  · rcases g3 with g3 | ⟨r, hr, g3⟩
    · exact .inl g3
    · exact .inr ⟨_, ⟨r, mem_intermCells.mp hr, rfl⟩, g3⟩

theorem maxAt_max {s : Setup} (g : Int → Int → Nat) (m : MPrim) (p : XKey) : MaxCost g (Visited s m p) (maxAt p.1 p.2.1 g (intermCells s.cs m.pts) 0) := by
  obtain ⟨-, h2, h3⟩ := maxAt_spec p.1 p.2.1 g (intermCells s.cs m.pts) 0
  constructor
  · rintro _ ⟨r, hr, rfl⟩; exact h2 r (mem_intermCells.mpr hr)
  · rcases h3 with h3 | ⟨r, hr, h3⟩
    · exact .inl h3
    · exact .inr ⟨_, ⟨r, mem_intermCells.mp hr, rfl⟩, h3⟩

theorem maxOver_unique {ls : List Lvl} {S : Int × Int → Prop} {a b : Nat} (ha : MaxOver ls S a) (hb : MaxOver ls S b) : a = b := by
  have half : ∀ {a b : Nat}, MaxOver ls S a → MaxOver ls S b → a ≤ b := by
    rintro a b ⟨-, h2⟩ ⟨g1, -⟩
    rcases h2 with h | ⟨l, hl, q, h, e⟩
    · omega
    · have := g1 l hl q h; omega
  exact Nat.le_antisymm (half ha hb) (half hb ha)

/-- the base level part of a transition -/
theorem MEdge.base {s : Setup} {grid : Int → Int → Nat} {ls : List Lvl} {m : MPrim} {p q : XKey} {c : Nat} (e : MEdge s grid ls m p q c) :
    ∃ v w, MaxCost grid (fun z => z = (p.1, p.2.1) ∨ z = (q.1, q.2.1) ∨ Visited s m p z) v ∧ MaxOver ls (Visited s m p) w ∧ c = m.cost * (max v w + 1) ∧
      Edge s grid m p q (m.cost * (v + 1)) := by
  obtain ⟨v, w, hv, hw, hc⟩ := e.cost
  refine ⟨v, w, hv, hw, hc, e.mem, e.heading, e.endX, e.endY, e.endT, ⟨e.src.1, e.src.2.1⟩, ⟨e.dst.1, e.dst.2.1, e.dst.2.2.1⟩, ?_, ?_, ⟨v, hv, rfl⟩, ?_⟩
  · intro r hr
    have := e.centre _ ⟨r, hr, rfl⟩
    exact ⟨this.1, this.2.1⟩
  · intro hp hc r hr
    have := e.swept hp hc r hr
    exact ⟨this.1, this.2.1⟩
  · have h1 := e.finite
    rw [hc] at h1
    exact Nat.lt_of_le_of_lt (Nat.mul_le_mul_left _ (by omega)) h1

theorem cellsOk_iff {s : Setup} {c : XCfg} (h : Static s c) {ls : List MLev} {m : MPrim} {p : XKey} :
    CellsOk c p.1 p.2.1 (intermCells s.cs m.pts) ls ↔ ∀ z, Visited s m p z → InMap s z ∧ ∀ l ∈ ls.map lvl, l.2 z.1 z.2 < s.obs ∧ l.2 z.1 z.2 < l.1.inscr := by
  constructor
  · rintro hc _ ⟨r, hr, rfl⟩
    obtain ⟨h1, h2⟩ := hc r (mem_intermCells.mpr hr)
    refine ⟨h.within.mp h1, ?_⟩
    intro l hl
    obtain ⟨l', hl', rfl⟩ := List.mem_map.mp hl
    have := h2 l' hl'
    rw [h.obs] at this
    exact this
  · intro hc r hr
    obtain ⟨h1, h2⟩ := hc _ ⟨r, mem_intermCells.mp hr, rfl⟩
    refine ⟨h.within.mpr h1, ?_⟩
    intro l hl
    have := h2 (lvl l) (List.mem_map.mpr ⟨l, hl, rfl⟩)
    rw [h.obs]
    exact this

/-- the footprint of a level hits nothing -/
theorem hits_false {s : Setup} {c : XCfg} (h : Static s c) {l : MLev} (hl : LStatic s l) {m : MPrim} {i : Nat} {p : XKey} {a : XAct}
    (hm : (s.prims.filter (fun m => decide (m.startTheta = p.2.2)))[i]? = some m) (hs : a.startTheta = p.2.2) (hi : a.aind = i) :
    hits c p.1 p.2.1 a l (maxAt p.1 p.2.1 l.grid (intermCells s.cs m.pts) 0) = false ↔
      ((lvl l).1.poly = true → (∀ v, MaxCost (lvl l).2 (Visited s m p) v → (lvl l).1.circ ≤ v) →
        ∀ r, SweptBy (lvl l).1.foot m.pts r → InMap s (shift p r) ∧ (lvl l).2 (shift p r).1 (shift p r).2 < s.obs) := by
  have hint : l.inter a.startTheta a.aind = motionCells l.inp.foot m.pts := by rw [hs, hi]; exact hl _ _ _ hm
  have hsw : ∀ r, r ∈ motionCells l.inp.foot m.pts ↔ SweptBy (lvl l).1.foot m.pts r := fun r => mem_motionCells_by
  have hmx := maxAt_max (s := s) l.grid m p
  have hval : ∀ x y : Int, validAt c l x y = true ↔ InMap s (x, y) ∧ l.grid x y < s.obs := by
    intro x y
    unfold validAt
    rw [Bool.and_eq_true, h.within, decide_eq_true_iff, h.obs]
  unfold hits
  rw [hint]
  constructor
  · intro hh hp hv r hr
    have hc := hv _ hmx
    have hpp : l.inp.poly = true := hp
    rw [hpp, Bool.true_and, decide_eq_true (show maxAt p.1 p.2.1 l.grid (intermCells s.cs m.pts) 0 ≥ l.inp.circ from hc), Bool.true_and, List.any_eq_false] at hh
    have := hh r ((hsw r).mpr hr)
    rw [Bool.not_eq_true, Bool.not_eq_false'] at this
    exact (hval _ _).mp this
  · intro hh
    rw [← Bool.not_eq_true, Bool.and_eq_true, Bool.and_eq_true, decide_eq_true_iff]
    rintro ⟨⟨k1, k2⟩, k3⟩
    obtain ⟨r, hr, hbad⟩ := List.any_eq_true.mp k3
    have := hh k1 (fun v hv => by rw [maxCost_unique hv hmx]; exact k2) r ((hsw r).mp hr)
    rw [(hval _ _).mpr this] at hbad
    cases hbad

/-- an action of the multi-level environment is a transition of the specification -/
theorem succAct_iff {s : Setup} {c : XCfg} (h : Static s c) (ok : SetupOk s) {ls : List MLev} (hls : ∀ l ∈ ls, LStatic s l) {m : MPrim} {i : Nat} {p q : XKey}
    {n : Nat} (hm : (s.prims.filter (fun m => decide (m.startTheta = p.2.2)))[i]? = some m) (p0 : 0 ≤ p.2.2) (pT : p.2.2 < s.T) :
    succAct ls c p (mkAct s.cs s.foot i m) = some (q, n) ↔ MEdge s c.grid (ls.map lvl) m p q n := by
  have hm' := List.mem_of_getElem? hm
  rw [List.mem_filter, decide_eq_true_iff] at hm'
  obtain ⟨hm1, hm2⟩ := hm'
  have hbase := fun (q : XKey) (n : Nat) => XEnv.succAct_iff (q := q) (n := n) h ok (i := i) hm1 hm2
  have pr := ok.prims m hm1
  have eX : (mkAct s.cs s.foot i m).dX = m.dX := toChar_id pr.1 pr.2.1
  have eY : (mkAct s.cs s.foot i m).dY = m.dY := toChar_id pr.2.2.1 pr.2.2.2.1
  have eC : (mkAct s.cs s.foot i m).cost = m.cost := rfl
  have eI : (mkAct s.cs s.foot i m).interm = intermCells s.cs m.pts := rfl
  have eJ : (mkAct s.cs s.foot i m).inter = motionCells s.foot m.poses := rfl
  have eA : (mkAct s.cs s.foot i m).aind = i := rfl
  have eS : (mkAct s.cs s.foot i m).startTheta = p.2.2 := by
    have : (mkAct s.cs s.foot i m).startTheta = toChar m.startTheta := rfl
    have ht := ok.headings
    rw [this, hm2]; exact toChar_id (by omega) (by omega)
  generalize mkAct s.cs s.foot i m = a at *
  have hinv : ∀ {x y : Int}, valid c ls x y = true ↔ InMap s (x, y) ∧ c.grid x y < s.obs ∧ ∀ l ∈ ls.map lvl, l.2 x y < s.obs := by
    intro x y
    rw [valid_iff, h.valid, h.obs, and_assoc]
    simp [lvl]
  have bf : BaseFree c ls p.1 p.2.1 a ↔ ∀ v, c.scan p.1 p.2.1 a.interm 0 = some v → s.poly = true → s.circ ≤ v → ∀ r, Swept s m r →
      ∀ l ∈ ls.map lvl, l.2 (shift p r).1 (shift p r).2 < s.obs := by
    unfold BaseFree
    rw [h.poly, h.circ, h.obs, eJ]
    constructor
    · intro hb v hv hp hc r hr l hl
      obtain ⟨l', hl', rfl⟩ := List.mem_map.mp hl
      exact hb v hv hp hc r (mem_motionCells.mpr hr) l' hl'
    · intro hb v hv hp hc r hr l hl
      exact hb v hv hp hc r (mem_motionCells.mp hr) (lvl l) (List.mem_map.mpr ⟨l, hl, rfl⟩)
  have bsucc : ∀ {q : XKey} {n : Nat}, c.succAct p a = some (q, n) ↔ c.valid (p.1 + a.dX) (p.2.1 + a.dY) = true ∧ c.actionCost p.1 p.2.1 a < INFINITECOST ∧
      q = c.target p a ∧ n = c.actionCost p.1 p.2.1 a := by
    intro q n
    unfold XCfg.succAct
    split_ifs with k1 k2
    · simp [k1]
    · constructor
      · intro hc; cases hc
      · rintro ⟨-, hc, -⟩; omega
    · constructor
      · intro hc; cases hc; exact ⟨by simpa using k1, by omega, rfl, rfl⟩
      · rintro ⟨-, -, rfl, rfl⟩; rfl
  unfold succAct
  constructor
  · intro hs
    split_ifs at hs with k1 k2
    rw [Bool.not_eq_false] at k1
    cases hs
    unfold actionCost at k2 ⊢
    split_ifs at k2 ⊢ with k3
    · exact absurd (Nat.le_refl _) k2
    have v1 : valid c ls p.1 p.2.1 = true := by
      by_contra hv
      rw [Bool.not_eq_true] at hv
      apply k3
      unfold costWith
      rw [if_pos hv]
    rcases costWith_spec v1 k1 with ⟨w1, w2⟩ | ⟨w1, -⟩
    swap
    · rw [w1] at k3; exact absurd (Nat.le_refl _) k3
    rw [w1] at k2 k3 ⊢
    have e := (hbase (c.target p a) (c.actionCost p.1 p.2.1 a)).mp (bsucc.mpr ⟨(valid_iff.mp k1).1, by omega, rfl, rfl⟩)
    have hobs : 0 < c.obs := by rw [h.obs]; have := e.src.2; omega
    have hfin : max (c.actionCost p.1 p.2.1 a) (addCost c ls p.1 p.2.1 a) < INFINITECOST := by omega
    rcases addCost_spec v1 k1 hobs with ⟨u1, -⟩ | ⟨u1, u2⟩
    · rw [u1] at hfin; omega
    obtain ⟨t1, t2, t3⟩ := hinv.mp v1
    obtain ⟨d1, d2, d3⟩ := hinv.mp k1
    obtain ⟨vb, hvb, hcb⟩ := e.cost
    have hcirc : ∀ v, c.scan p.1 p.2.1 a.interm 0 = some v → MaxCost c.grid (Visited s m p) v := by
      intro v hv; rw [eI] at hv; exact scan_max hv
    have hsc : ∃ v, c.scan p.1 p.2.1 a.interm 0 = some v := by
      rw [eI]
      refine scan_ok (.inl rfl) ?_
      intro r hr
      obtain ⟨b1, b2⟩ := e.centre r (mem_intermCells.mp hr)
      rw [h.inscr]
      exact ⟨h.within.mpr b1, b2⟩
    obtain ⟨vs, hvs⟩ := hsc
    have hcell : ls ≠ [] → ∀ z, Visited s m p z → InMap s z ∧ ∀ l ∈ ls.map lvl, l.2 z.1 z.2 < s.obs ∧ l.2 z.1 z.2 < l.1.inscr := by
      intro hn
      have := u1.cells hn
      rw [eI] at this
      exact (cellsOk_iff h).mp this
    have hw : ∃ w, MaxOver (ls.map lvl) (Visited s m p) w ∧ max (c.actionCost p.1 p.2.1 a) (addCost c ls p.1 p.2.1 a) = m.cost * (max vb w + 1) := by
      rcases u2 with ⟨hn, u2⟩ | ⟨hn, w, u2, u3, u4⟩
      · refine ⟨0, ⟨by rw [hn]; simp, .inl rfl⟩, ?_⟩
        rw [u2, hcb]; simp
      · refine ⟨w, ⟨?_, ?_⟩, ?_⟩
        · rintro l hl _ ⟨r, hr, rfl⟩
          obtain ⟨l', hl', rfl⟩ := List.mem_map.mp hl
          exact u3 r (by rw [eI]; exact mem_intermCells.mpr hr) l' hl'
        · rcases u4 with u4 | ⟨r, hr, l, hl, u4⟩
          · exact .inl u4
          · right
            rw [eI] at hr
            exact ⟨lvl l, List.mem_map.mpr ⟨l, hl, rfl⟩, _, ⟨r, mem_intermCells.mp hr, rfl⟩, u4⟩
        · rw [u2, hcb, eC, Nat.mul_max_mul_left]
          congr 1; omega
    obtain ⟨w, hw1, hw2⟩ := hw
    rw [hw2] at hfin ⊢
    have ex := e.endX
    have ey := e.endY
    refine ⟨e.mem, e.heading, ex, ey, e.endT, ⟨t1, t2, t3⟩, ⟨e.dst.1, e.dst.2.1, e.dst.2.2, ?_⟩, ?_, ?_, ?_, ⟨vb, w, hvb, hw1, rfl⟩, hfin⟩
    · intro l hl
      refine ⟨d3 l hl, ?_⟩
      obtain ⟨l', hl', rfl⟩ := List.mem_map.mp hl
      exact u1.dst l' hl'
    · rintro z hz
      obtain ⟨r, hr, rfl⟩ := hz
      obtain ⟨b1, b2⟩ := e.centre r hr
      refine ⟨b1, b2, ?_⟩
      intro l hl
      have hn : ls ≠ [] := by intro hn; rw [hn] at hl; simp at hl
      exact (hcell hn _ ⟨r, hr, rfl⟩).2 l hl
    · intro hp hv r hr
      have b := e.swept hp hv r hr
      exact ⟨b.1, b.2, bf.mp w2 vs hvs hp (hv _ (hcirc _ hvs)) r hr⟩
    · intro l hl
      obtain ⟨l', hl', rfl⟩ := List.mem_map.mp hl
      have := u1.foot l' hl'
      rw [eI] at this
      exact (hits_false h (hls l' hl') hm eS eA).mp this
  · intro e
    obtain ⟨vb, w, hvb, hw1, hcost, eb⟩ := MEdge.base e
    have bs := (hbase q _).mpr eb
    obtain ⟨b1, b2, b3, b4⟩ := bsucc.mp bs
    have qX : q.1 = p.1 + a.dX := by rw [e.endX, eX]
    have qY : q.2.1 = p.2.1 + a.dY := by rw [e.endY, eY]
    have v1 : valid c ls p.1 p.2.1 = true := hinv.mpr e.src
    have v2 : valid c ls (p.1 + a.dX) (p.2.1 + a.dY) = true := by
      rw [← qX, ← qY]
      exact hinv.mpr ⟨e.dst.1, e.dst.2.1, fun l hl => (e.dst.2.2.2 l hl).1⟩
    have hbf : BaseFree c ls p.1 p.2.1 a := by
      rw [bf]
      intro v hv hp hc r hr
      rw [eI] at hv
      exact (e.swept hp (fun u hu => by rw [maxCost_unique hu (scan_max hv)]; exact hc) r hr).2.2
    have hobs : 0 < c.obs := by rw [h.obs]; have := e.src.2.1; omega
    have hok : AddOk c ls p.1 p.2.1 a := by
      refine ⟨?_, ?_, ?_⟩
      · intro l hl
        have := (e.dst.2.2.2 (lvl l) (List.mem_map.mpr ⟨l, hl, rfl⟩)).2
        rw [← qX, ← qY]; exact this
      · intro _
        rw [eI]
        exact (cellsOk_iff h).mpr (fun z hz => ⟨(e.centre z hz).1, (e.centre z hz).2.2⟩)
      · intro l hl
        rw [eI]
        exact (hits_false h (hls l hl) hm eS eA).mpr (e.sweptAt (lvl l) (List.mem_map.mpr ⟨l, hl, rfl⟩))
    have hcw : costWith (valid c ls) c p.1 p.2.1 a = m.cost * (vb + 1) := by
      rcases costWith_spec v1 v2 with ⟨w1, -⟩ | ⟨-, w2⟩
      · rw [w1, ← b4]
      · have := w2 hbf; omega
    have hadd : max (m.cost * (vb + 1)) (addCost c ls p.1 p.2.1 a) = n := by
      rcases addCost_spec v1 v2 hobs with ⟨-, u2⟩ | ⟨-, ⟨hn, u2⟩ | ⟨hn, w', u2, u3, u4⟩⟩
      · exact absurd hok u2
      · have hw0 : w = 0 := by
          rcases hw1.2 with k | ⟨l, hl, -⟩
          · exact k
          · rw [hn] at hl; simp at hl
        rw [u2, hcost, hw0]; simp
      · have hw' : MaxOver (ls.map lvl) (Visited s m p) w' := by
          constructor
          · rintro l hl _ ⟨r, hr, rfl⟩
            obtain ⟨l', hl', rfl⟩ := List.mem_map.mp hl
            exact u3 r (by rw [eI]; exact mem_intermCells.mpr hr) l' hl'
          · rcases u4 with u4 | ⟨r, hr, l, hl, u4⟩
            · exact .inl u4
            · right
              rw [eI] at hr
              exact ⟨lvl l, List.mem_map.mpr ⟨l, hl, rfl⟩, _, ⟨r, mem_intermCells.mp hr, rfl⟩, u4⟩
        rw [u2, hcost, maxOver_unique hw1 hw', eC, Nat.mul_max_mul_left]
        congr 1; omega
    have hfin := e.finite
    have hb5 : m.cost * (vb + 1) < INFINITECOST := by have := eb.finite; exact this
    have hac : actionCost c ls p.1 p.2.1 a = n := by
      unfold actionCost
      rw [hcw, if_neg (by omega), hadd]
    rw [if_neg (by simp [v2]), hac, if_neg (by omega), ← b3]

end Sbpl.MEnv
