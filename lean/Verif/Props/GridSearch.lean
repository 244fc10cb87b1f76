import Verif.Proofs.GridSearchResult
/-!
# Properties C41–C45: the 2D grid search with a heap
-/

namespace Sbpl.GridProps
open GridSpec Grid2D GraphSpec

/-- the objects a program can hold: built by the constructor, then used for any sequence of searches, each with its own map,
threshold, start, goal and termination condition -/
inductive Reached (w h ds mm0 den : Nat) : Grid2D → Prop
  | new : Reached w h ds mm0 den (init w h ds mm0 den)
  | search {s s' : Grid2D} {b : Bool} (grid : Int → Int → Nat) (thr : Nat) (st gl : Int × Int) (t : Term) :
      Reached w h ds mm0 den s → s.search grid thr st gl t = .ok (b, s') → Reached w h ds mm0 den s'

/-- the map to be searched: the caller's `w * h` map downsampled by `ds` -/
structure Describes (m : Map) (w h ds mm0 den : Nat) (grid : Int → Int → Nat) (thr : Nat) : Prop where
  W : m.W = w / ds
  H : m.H = h / ds
  thr : m.thr = thr
  mm : m.mm = mm0 * ds
  den : m.den = den
  cost : ∀ c, BlockCost ds grid c (m.cost c)

/-- the cell of the downsampled map (integer division as in C) -/
def coarse (ds : Nat) (p : Int × Int) : Cell := (p.1.tdiv ds, p.2.tdiv ds)

theorem describes_eq {m : Map} {w h ds mm0 den : Nat} {grid : Int → Int → Nat} {thr : Nat} (hd : 1 ≤ ds)
    (d : Describes m w h ds mm0 den grid thr) {s : Grid2D} (k : Keeps (init w h ds mm0 den) s) : s.mapOf grid thr = m := by
  obtain ⟨W, H, c, t, mm, dn⟩ := m
  obtain ⟨d1, d2, d3, d4, d5, d6⟩ := d
  simp only at d1 d2 d3 d4 d5 d6
  subst d1 d2 d3 d4 d5
  have : c = fun p => cost ds grid p.1 p.2 := by
    funext p
    exact blockCost_unique (d6 p) (cost_block hd grid p.1 p.2)
  subst this
  simp only [mapOf, k.W, k.H, k.ds, k.mm, k.den]
  rfl

theorem Keeps.trans {a b c : Grid2D} (x : Keeps a b) (y : Keeps b c) : Keeps a c :=
  ⟨y.W.trans x.W, y.H.trans x.H, y.ds.trans x.ds, y.mm.trans x.mm, y.den.trans x.den⟩

theorem reached_inv {w h ds mm0 den : Nat} (hN : w / ds * (h / ds) + 1 < Heap.HEAPSIZE) {s : Grid2D}
    (r : Reached w h ds mm0 den s) : Between s ∧ Keeps (init w h ds mm0 den) s := by
  induction r with
  | new => exact ⟨init_between w h ds mm0 den, ⟨rfl, rfl, rfl, rfl, rfl⟩⟩
  | @search s s' b grid thr st gl t _ e ih =>
    obtain ⟨b1, k⟩ := ih
    have := searchHeap_ok b1 grid thr (st.1.tdiv s.ds, st.2.tdiv s.ds) (gl.1.tdiv s.ds, gl.2.tdiv s.ds) t
      (by rw [k.W, k.H]; exact hN)
    unfold Grid2D.search at e
    rw [e] at this
    exact ⟨this.1, Keeps.trans k this.2.1⟩

theorem inside_map {m : Map} {w h ds mm0 den : Nat} {grid : Int → Int → Nat} {thr : Nat} (d : Describes m w h ds mm0 den grid thr)
    {s : Grid2D} (k : Keeps (init w h ds mm0 den) s) {p : Cell} : m.Inside p ↔ s.within p.1 p.2 = true := by
  rw [within_iff, k.W, k.H]
  unfold Map.Inside
  rw [d.W, d.H]
  rfl

/-- everything known about a search that returned `true` -/
theorem search_done {w h ds mm0 den : Nat} (hd : 1 ≤ ds) (hN : w / ds * (h / ds) + 1 < Heap.HEAPSIZE) {s s' : Grid2D}
    (r : Reached w h ds mm0 den s) {grid : Int → Int → Nat} {thr : Nat} {st gl : Int × Int} {t : Term}
    (e : s.search grid thr st gl t = .ok (true, s')) {m : Map} (d : Describes m w h ds mm0 den grid thr) :
    Keeps (init w h ds mm0 den) s' ∧ s'.last = t ∧ s'.goal = coarse ds gl ∧ m.Inside (coarse ds st) ∧ m.Inside (coarse ds gl) ∧
    s'.mapOf grid thr = m ∧
    Done s' (s'.edges grid thr) (s'.sid (coarse ds st).1 (coarse ds st).2) (s'.sid (coarse ds gl).1 (coarse ds gl).2) := by
  obtain ⟨b1, k⟩ := reached_inv hN r
  have := searchHeap_ok b1 grid thr (st.1.tdiv s.ds, st.2.tdiv s.ds) (gl.1.tdiv s.ds, gl.2.tdiv s.ds) t
    (by rw [k.W, k.H]; exact hN)
  unfold Grid2D.search at e
  rw [e] at this
  obtain ⟨_, k2, hg, hl, hb, hdn⟩ := this
  change Keeps s s' at k2
  change s'.goal = _ at hg
  change s'.last = t at hl
  have k3 := Keeps.trans k k2
  have eds : s.ds = ds := k.ds
  rw [eds] at hg hb hdn
  have hb := hb.mp rfl
  refine ⟨k3, hl, hg, (inside_map d k).mpr hb.1, (inside_map d k).mpr hb.2, describes_eq hd d k3, ?_⟩
  have e1 : s'.edges grid thr = s.edges grid thr := by
    funext i
    unfold edges
    congr 1
    funext dd
    have e1 : s'.within = s.within := within_keeps k2
    have e2 : s'.px = s.px := by funext x; simp only [px, k2.W]
    have e3 : s'.py = s.py := by funext x; simp only [py, k2.W]
    have e4 : s'.sid = s.sid := sid_keeps k2
    have e5 : s'.moveMult = s.moveMult := by funext x y z w; simp only [moveMult, k2.ds]
    have e6 : s'.dist = s.dist := by funext x; simp only [dist, k2.mm, k2.den]
    unfold edge?
    rw [e1, e2, e3, e4, e5, e6]
  rw [e1, sid_keeps k2]
  exact hdn rfl

/-! ## C41: searches are total -/

/-- **C41.** Whatever searches an object has been used for, a further search — any map, threshold, termination condition, any
start and goal — ends, raises no exception and reads no cell outside the map.  It returns `true` exactly if the cells of start
and goal are in the downsampled map.  (`w / ds * (h / ds) + 1 < Heap.HEAPSIZE`: the capacity of the heap.) -/
theorem search_total {w h ds mm0 den : Nat} (hN : w / ds * (h / ds) + 1 < Heap.HEAPSIZE) {s : Grid2D}
    (r : Reached w h ds mm0 den s) (grid : Int → Int → Nat) (thr : Nat) (st gl : Int × Int) (t : Term) :
    ∃ b s', s.search grid thr st gl t = .ok (b, s') ∧ (b = true ↔
      (0 ≤ st.1.tdiv ds ∧ st.1.tdiv ds < ↑(w / ds) ∧ 0 ≤ st.2.tdiv ds ∧ st.2.tdiv ds < ↑(h / ds)) ∧
      (0 ≤ gl.1.tdiv ds ∧ gl.1.tdiv ds < ↑(w / ds) ∧ 0 ≤ gl.2.tdiv ds ∧ gl.2.tdiv ds < ↑(h / ds))) := by
  obtain ⟨b1, k⟩ := reached_inv hN r
  have := searchHeap_ok b1 grid thr (st.1.tdiv s.ds, st.2.tdiv s.ds) (gl.1.tdiv s.ds, gl.2.tdiv s.ds) t
    (by rw [k.W, k.H]; exact hN)
  unfold Grid2D.search
  cases e : s.searchHeap grid thr (st.1.tdiv s.ds, st.2.tdiv s.ds) (gl.1.tdiv s.ds, gl.2.tdiv s.ds) t with
  | error er => rw [e] at this; exact this.elim
  | ok v =>
    rw [e] at this
    obtain ⟨b, s'⟩ := v
    refine ⟨b, s', rfl, ?_⟩
    have hb := this.2.2.2.2.1
    rw [within_iff, within_iff] at hb
    have eds : s.ds = ds := k.ds
    have eW : s.W = w / ds := k.W
    have eH : s.H = h / ds := k.H
    rw [eds, eW, eH] at hb
    rw [hb]
    dsimp only
    tauto

/-! ## C42, C43: searches without heuristic -/

/-- the cost limit that a termination condition promises, as a multiple of the cost of the goal: cells cheaper than
`num / den` times the goal are computed exactly (`den = 0`: all cells) -/
def promised : Term → Nat × Nat
  | .optPath => (1, 1)
  | .percent20 => (6, 5)
  | .twoTimes => (2, 1)
  | .threeTimes => (3, 1)
  | .allCells => (1, 0)

theorem lowerBound_val {s : Grid2D} (h : s.last ≠ .optPath) (x y : Int) :
    s.lowerBound x y = s.val (s.sid (x.tdiv s.ds) (y.tdiv s.ds)) := by
  unfold lowerBound val
  dsimp only
  rw [if_neg h]
  split <;> simp

/-- **C42.** After a successful search with a termination condition other than OPTPATHFOUND, for every cell of the map:
the value reported is a lower bound on the cost of every way from the start to the cell, it is the cost of an actual way whenever
it is below getlargestcomputedoptimalf_inmm(), and it never exceeds that value or INFINITECOST. -/
theorem lower_bounds {w h ds mm0 den : Nat} (hd : 1 ≤ ds) (hN : w / ds * (h / ds) + 1 < Heap.HEAPSIZE) {s s' : Grid2D}
    (r : Reached w h ds mm0 den s) {grid : Int → Int → Nat} {thr : Nat} {st gl : Int × Int} {t : Term} (ht : t ≠ .optPath)
    (e : s.search grid thr st gl t = .ok (true, s')) {m : Map} (d : Describes m w h ds mm0 den grid thr)
    (c : Int × Int) (hc : m.Inside (coarse ds c)) :
    (∀ n, m.Way (coarse ds st) (coarse ds c) n → s'.lowerBound c.1 c.2 ≤ n) ∧
    (s'.lowerBound c.1 c.2 < s'.largest → ∃ n : Nat, s'.lowerBound c.1 c.2 = n ∧ m.Way (coarse ds st) (coarse ds c) n) ∧
    s'.lowerBound c.1 c.2 ≤ s'.largest ∧ s'.lowerBound c.1 c.2 ≤ INFINITECOST := by
  obtain ⟨k, hl, hg, i1, i2, hm, hdn⟩ := search_done hd hN r e d
  obtain ⟨cl, o⟩ := hdn.ok
  have ht' : s'.last ≠ .optPath := by rw [hl]; exact ht
  rw [lowerBound_val ht']
  have eds : s'.ds = ds := k.ds
  rw [eds]
  have w1 := (inside_map d k).mp i1
  have w2 := (inside_map d k).mp hc
  refine ⟨?_, ?_, ?_, ?_⟩
  · intro n w
    rw [← hm] at w
    exact_mod_cast val_lower ht' hdn o ((walk_iff_way w1 w2).mpr w)
  · intro hlt
    refine ⟨_, rfl, ?_⟩
    rw [← hm]
    exact (walk_iff_way w1 w2).mp (val_exact ht' hdn o (by exact_mod_cast hlt))
  · have : s'.val (s'.sid (c.1.tdiv ds) (c.2.tdiv ds)) ≤ s'.largest := by unfold val; split <;> omega
    exact_mod_cast this
  · exact_mod_cast val_le ht' hdn o _

/-- **C43.** After such a search the cost reported for the goal is the cost of a cheapest way (INFINITECOST if there is none
below), and so is the cost of every cell that the termination condition promises to compute. -/
theorem promised_exact {w h ds mm0 den : Nat} (hd : 1 ≤ ds) (hN : w / ds * (h / ds) + 1 < Heap.HEAPSIZE) {s s' : Grid2D}
    (r : Reached w h ds mm0 den s) {grid : Int → Int → Nat} {thr : Nat} {st gl : Int × Int} {t : Term} (ht : t ≠ .optPath)
    (e : s.search grid thr st gl t = .ok (true, s')) {m : Map} (d : Describes m w h ds mm0 den grid thr) :
    m.Dist INFINITECOST (coarse ds st) (coarse ds gl) (s'.lowerBound gl.1 gl.2) ∧
    ∀ c : Int × Int, m.Inside (coarse ds c) → ∀ v, m.Dist INFINITECOST (coarse ds st) (coarse ds c) v →
      (promised t).2 * v < (promised t).1 * s'.lowerBound gl.1 gl.2 → s'.lowerBound c.1 c.2 = v := by
  obtain ⟨k, hl, hg, i1, i2, hm, hdn⟩ := search_done hd hN r e d
  obtain ⟨cl, o⟩ := hdn.ok
  have ht' : s'.last ≠ .optPath := by rw [hl]; exact ht
  have eds : s'.ds = ds := k.ds
  have lbg : s'.lowerBound gl.1 gl.2 = s'.g (s'.sid (coarse ds gl).1 (coarse ds gl).2) := by
    rw [lowerBound_val ht', eds]
    exact_mod_cast val_goal hdn o
  constructor
  · refine ⟨(lower_bounds hd hN r ht e d gl i2).2.2.2, ?_, (lower_bounds hd hN r ht e d gl i2).1⟩
    rw [lbg]
    rcases o.walk _ o.goalAcc with q | q
    · left; rw [q]
    · right
      refine ⟨_, rfl, ?_⟩
      rw [← hm]
      exact (walk_iff_way ((inside_map d k).mp i1) ((inside_map d k).mp i2)).mp q
  · intro c hc v ⟨v1, v2, v3⟩ hlt
    obtain ⟨l1, l2, l3, l4⟩ := lower_bounds hd hN r ht e d c hc
    have h1 : s'.lowerBound c.1 c.2 ≤ v := by
      rcases v2 with q | ⟨n, q, w⟩
      · rw [q]; exact l4
      · rw [q]; exact l1 n w
    by_contra ne
    have hlt2 : s'.lowerBound c.1 c.2 < v := lt_of_le_of_ne h1 ne
    have h2 : ¬ s'.lowerBound c.1 c.2 < s'.largest := by
      intro q
      obtain ⟨n, q1, q2⟩ := l2 q
      have := v3 n q2
      omega
    have h3 : s'.lowerBound c.1 c.2 = s'.largest := le_antisymm l3 (not_lt.mp h2)
    rw [lbg] at hlt
    rcases goal_le hdn o with q | q
    · have : (s'.largest : Int) = INFINITECOST := by exact_mod_cast q
      omega
    · rw [hl] at q
      generalize s'.g (s'.sid (coarse ds gl).1 (coarse ds gl).2) = G at q hlt
      cases t <;> simp only [Term.factor, promised] at q hlt <;> first | omega | contradiction

/-! ## C44: the search with heuristic -/

/-- **C44.** After a successful search with OPTPATHFOUND, if the cells are a whole number of millimetres wide: the cost reported
for the goal is the cost of a cheapest way (capped at INFINITECOST), and the value reported for any cell is a lower bound on the
cost of every way from the start to the cell, unless that cost plus the heuristic distance to the goal reaches INFINITECOST. -/
theorem astar_exact {w h ds mm0 den : Nat} (hd : 1 ≤ ds) (hN : w / ds * (h / ds) + 1 < Heap.HEAPSIZE) (hden : 0 < den)
    (hmm : den ∣ mm0 * ds) {s s' : Grid2D} (r : Reached w h ds mm0 den s) {grid : Int → Int → Nat} {thr : Nat}
    {st gl : Int × Int} (e : s.search grid thr st gl .optPath = .ok (true, s')) {m : Map}
    (d : Describes m w h ds mm0 den grid thr) :
    m.Dist INFINITECOST (coarse ds st) (coarse ds gl) (s'.lowerBound gl.1 gl.2) ∧
    ∀ c : Int × Int, m.Inside (coarse ds c) → ∀ n, m.Way (coarse ds st) (coarse ds c) n →
      s'.lowerBound c.1 c.2 ≤ n ∨
      (INFINITECOST : Int) ≤ n + mm0 * ds / den * max |(coarse ds c).1 - (coarse ds gl).1| |(coarse ds c).2 - (coarse ds gl).2| := by
  obtain ⟨k, hl, hg, i1, i2, hm, hdn⟩ := search_done hd hN r e d
  obtain ⟨cl, o⟩ := hdn.ok
  have eds : s'.ds = ds := k.ds
  have eden : s'.den = den := k.den
  have emm : s'.mm = mm0 * ds := k.mm
  have hcons : Cons s' (s'.edges grid thr) := by
    intro j u c hm
    unfold hk
    rw [if_pos hl, if_pos hl]
    exact cons_heur (by rw [eden]; exact hden) (by rw [eden, emm]; exact hmm) hm
  have hkh : ∀ x y, s'.within x y = true → s'.hk (s'.sid x y) = s'.heur x y := by
    intro x y hw; unfold hk; rw [if_pos hl, px_sid hw, py_sid hw]
  have hheur : ∀ x y, (s'.heur x y : Int) = mm0 * ds / den * max |x - (coarse ds gl).1| |y - (coarse ds gl).2| := by
    intro x y
    obtain ⟨q, hq⟩ := hmm
    unfold heur
    rw [hg, emm, eden]
    have h1 : mm0 * ds * (max |x - (coarse ds gl).1| |y - (coarse ds gl).2|).toNat / den =
        q * (max |x - (coarse ds gl).1| |y - (coarse ds gl).2|).toNat := by
      rw [hq, Nat.mul_assoc, Nat.mul_div_cancel_left _ hden]
    have h2 : ((mm0 : Int) * ds) / den = q := by
      rw [show ((mm0 : Int) * ds) = (den : Int) * q by exact_mod_cast hq]
      exact Int.mul_ediv_cancel_left _ (by omega)
    rw [h1, h2]
    push_cast
    rw [Int.toNat_of_nonneg (le_trans (abs_nonneg _) (le_max_left _ _))]
  have hgl0 : s'.heur (coarse ds gl).1 (coarse ds gl).2 = 0 := by
    have := hheur (coarse ds gl).1 (coarse ds gl).2
    simp at this
    exact this
  have wg := (inside_map d k).mp i2
  have ws := (inside_map d k).mp i1
  have lbg : s'.lowerBound gl.1 gl.2 = s'.g (s'.sid (coarse ds gl).1 (coarse ds gl).2) := by
    unfold lowerBound
    dsimp only
    rw [if_pos hl, eds, if_pos]
    · rfl
    · refine ⟨o.goalAcc, ?_⟩
      have := goal_le' hdn o
      have h0 : s'.heur (gl.1.tdiv ds) (gl.2.tdiv ds) = 0 := hgl0
      rw [h0]; exact this
  have lower : ∀ c : Int × Int, m.Inside (coarse ds c) → ∀ n, m.Way (coarse ds st) (coarse ds c) n →
      s'.lowerBound c.1 c.2 ≤ n ∨ INFINITECOST ≤ n + s'.heur (coarse ds c).1 (coarse ds c).2 := by
    intro c hc n w
    have wc := (inside_map d k).mp hc
    rw [← hm] at w
    have w' := (walk_iff_way ws wc).mpr w
    by_cases hbig : INFINITECOST ≤ n + s'.heur (coarse ds c).1 (coarse ds c).2
    · exact .inr hbig
    left
    have hhk := hkh _ _ wc
    unfold lowerBound
    dsimp only
    rw [if_pos hl, eds]
    change (if s'.it (s'.sid (coarse ds c).1 (coarse ds c).2) = s'.iter ∧
      s'.g (s'.sid (coarse ds c).1 (coarse ds c).2) + s'.heur (coarse ds c).1 (coarse ds c).2 ≤ s'.largest then
        (s'.g (s'.sid (coarse ds c).1 (coarse ds c).2) : Int)
      else if s'.largest < INFINITECOST then (s'.largest : Int) - s'.heur (coarse ds c).1 (coarse ds c).2 else INFINITECOST) ≤ n
    rcases front hdn o hcons w' with q | q | q
    · have h1 := o.opt hcons _ q n w'
      have h2 := o.clAcc _ q
      split
      next => exact_mod_cast h1
      next r1 =>
        have : ¬ s'.g (s'.sid (coarse ds c).1 (coarse ds c).2) + s'.heur (coarse ds c).1 (coarse ds c).2 ≤ s'.largest :=
          fun r' => r1 ⟨h2, r'⟩
        split <;> omega
    · exact absurd (Nat.le_trans q (Nat.le_add_right _ _)) hbig
    · rw [hhk] at q
      split
      next r1 => omega
      next r1 =>
        split
        next => omega
        next r2 => exact absurd (Nat.le_trans (Nat.not_lt.mp r2) q) hbig
  constructor
  · refine ⟨?_, ?_, ?_⟩
    · rw [lbg]; exact_mod_cast o.gle _ o.goalAcc
    · rw [lbg]
      rcases o.walk _ o.goalAcc with q | q
      · left; rw [q]
      · right
        refine ⟨_, rfl, ?_⟩
        rw [← hm]
        exact (walk_iff_way ws wg).mp q
    · intro n w
      rcases lower gl i2 n w with q | q
      · exact q
      · rw [hgl0] at q
        rw [lbg]
        have := o.gle _ o.goalAcc
        have h3 : s'.g (s'.sid (coarse ds gl).1 (coarse ds gl).2) ≤ n := Nat.le_trans this q
        exact_mod_cast h3
  · intro c hc n w
    rcases lower c hc n w with q | q
    · exact .inl q
    · right
      rw [← hheur]; exact_mod_cast q

/-! ## C45: the costs are symmetric -/

theorem dist_unique {m : Map} {cap : Nat} {p q : Cell} {v v' : Int} (h : m.Dist cap p q v) (h' : m.Dist cap p q v') : v = v' := by
  obtain ⟨a1, a2, a3⟩ := h
  obtain ⟨b1, b2, b3⟩ := h'
  apply le_antisymm
  · rcases b2 with q | ⟨n, q, w⟩
    · rw [q]; exact a1
    · rw [q]; exact a3 n w
  · rcases a2 with q | ⟨n, q, w⟩
    · rw [q]; exact b1
    · rw [q]; exact b3 n w

theorem dist_symm {m : Map} {cap : Nat} {p q : Cell} {v : Int} (h : m.Dist cap p q v) : m.Dist cap q p v := by
  obtain ⟨a1, a2, a3⟩ := h
  refine ⟨a1, ?_, fun n w => a3 n (way_symm w)⟩
  rcases a2 with r | ⟨n, r, w⟩
  · exact .inl r
  · exact .inr ⟨n, r, way_symm w⟩

/-- **C45.** Forward and backward searches agree: on the same map, the cost of the goal found by a search from the start equals the cost of the
start found by a search from the goal, whatever the two objects have been used for before and whatever the two termination conditions. -/
theorem forward_backward {w h ds mm0 den : Nat} (hd : 1 ≤ ds) (hN : w / ds * (h / ds) + 1 < Heap.HEAPSIZE)
    {s s' r r' : Grid2D} (hs : Reached w h ds mm0 den s) (hr : Reached w h ds mm0 den r) {grid : Int → Int → Nat} {thr : Nat}
    {st gl : Int × Int} {t u : Term} (ht : t ≠ .optPath) (hu : u ≠ .optPath)
    (e : s.search grid thr st gl t = .ok (true, s')) (e' : r.search grid thr gl st u = .ok (true, r')) :
    s'.lowerBound gl.1 gl.2 = r'.lowerBound st.1 st.2 := by
  have d : Describes ((init w h ds mm0 den).mapOf grid thr) w h ds mm0 den grid thr :=
    ⟨rfl, rfl, rfl, rfl, rfl, fun c => cost_block hd grid c.1 c.2⟩
  exact dist_unique (promised_exact hd hN hs ht e d).1 (dist_symm (promised_exact hd hN hr hu e' d).1)

end Sbpl.GridProps
