import Verif.Proofs.GridBucketLoop
import Verif.Props.GridSearch
/-!
# Properties C47, C48: the 2D grid search with sliding buckets
-/

namespace Sbpl.GridBProps
open GridSpec Grid2D GraphSpec GridB GridProps

/-- the objects a program can hold: built by the constructor, switched to the buckets, then used for any sequence of searches, each with its own
map, threshold, start, goal and termination condition -/
inductive ReachedB (w h ds mm0 den dyn : Nat) : GridB → Prop
  | new : ReachedB w h ds mm0 den dyn (GridB.init w h ds mm0 den dyn)
  | search {b b' : GridB} {v : Bool} (grid : Int → Int → Nat) (thr : Nat) (st gl : Int × Int) (t : Term) : thr ≤ 254 →
      ReachedB w h ds mm0 den dyn b → b.search grid thr st gl t = .ok (v, b') → ReachedB w h ds mm0 den dyn b'

theorem foldl_max_ge (l : List Nat) : ∀ a, a ≤ l.foldl max a ∧ ∀ x ∈ l, x ≤ l.foldl max a := by
  induction l with
  | nil => intro a; simp
  | cons y l ih =>
    intro a
    obtain ⟨h1, h2⟩ := ih (max a y)
    simp only [List.foldl_cons]
    refine ⟨by omega, fun x hx => ?_⟩
    rcases List.mem_cons.mp hx with q | q
    · rw [q]; omega
    · exact h2 x q

/-- invariant of the objects -/
structure Fine (w h ds mm0 den dyn : Nat) (b : GridB) : Prop where
  btw : Between b
  keeps : Keeps (Grid2D.init w h ds mm0 den) b.s
  n : b.q.n = (GridB.init w h ds mm0 den dyn).q.n
  bsz : b.q.bsz = max 1000 (w / ds + h / ds)

theorem nbuckets {w h ds mm0 den dyn : Nat} (hden : 1 ≤ den) (hmm : den ≤ mm0 * ds) :
    0 < (GridB.init w h ds mm0 den dyn).q.n ∧ ∀ d ∈ gridDirs, ∀ m : Nat, m < 254 →
      (m + 1) * (Grid2D.init w h ds mm0 den).dist d < (GridB.init w h ds mm0 den dyn).q.n := by
  show 0 < 255 * (gridDirs.map (Grid2D.init w h ds mm0 den).dist).foldl max 0 ∧ ∀ d ∈ gridDirs, ∀ m : Nat, m < 254 →
      (m + 1) * (Grid2D.init w h ds mm0 den).dist d < 255 * (gridDirs.map (Grid2D.init w h ds mm0 den).dist).foldl max 0
  have hmax := (foldl_max_ge (gridDirs.map (Grid2D.init w h ds mm0 den).dist) 0).2
  generalize (gridDirs.map (Grid2D.init w h ds mm0 den).dist).foldl max 0 = M at *
  have h1 : 1 ≤ M := by
    refine Nat.le_trans ?_ (hmax ((Grid2D.init w h ds mm0 den).dist ⟨1, 0, (-1, -1), (0, 0), true⟩) (List.mem_map.mpr ⟨_, by decide, rfl⟩))
    show 1 ≤ if (1 : Int) ≠ 0 ∧ (0 : Int) ≠ 0 then _ else mm0 * ds / den
    rw [if_neg (by decide)]
    exact Nat.div_pos hmm hden
  refine ⟨by omega, fun d hd m hm => ?_⟩
  have h2 := hmax _ (List.mem_map.mpr ⟨d, hd, rfl⟩)
  have h3 : (m + 1) * (Grid2D.init w h ds mm0 den).dist d ≤ 254 * M := Nat.mul_le_mul (by omega) h2
  omega

theorem edge_window {w h ds mm0 den dyn : Nat} (hden : 1 ≤ den) (hmm : den ≤ mm0 * ds) {b : GridB} (f : Fine w h ds mm0 den dyn b)
    {grid : Int → Int → Nat} {thr : Nat} (ht : thr ≤ 254) : ∀ i, ∀ e ∈ b.s.edges grid thr i, e.2 < b.q.n := by
  intro i e he
  unfold edges at he
  obtain ⟨d, hd, he⟩ := List.mem_filterMap.mp he
  unfold edge? at he
  split at he
  next q =>
    cases he
    have hdist : b.s.dist d = (Grid2D.init w h ds mm0 den).dist d := by simp only [dist, f.keeps.mm, f.keeps.den]
    rw [f.n]
    show (_ + 1) * b.s.dist d < _
    rw [hdist]
    exact (nbuckets hden hmm).2 d hd _ (by omega)
  next => cases he

theorem reached_fine {w h ds mm0 den dyn : Nat} (hden : 1 ≤ den) (hmm : den ≤ mm0 * ds) {b : GridB}
    (r : ReachedB w h ds mm0 den dyn b) : Fine w h ds mm0 den dyn b := by
  induction r with
  | new =>
    refine ⟨⟨⟨[], SBuck.mk0_ok (nbuckets (w := w) (h := h) (dyn := dyn) hden hmm).1 ?_⟩, fun _ => Nat.le_refl _⟩, ⟨rfl, rfl, rfl, rfl, rfl⟩, rfl, rfl⟩
    show 0 < max 1000 _; omega
  | @search b b' v grid thr st gl t ht _ e ih =>
    have := searchB_ok ih.btw grid thr (st.1.tdiv b.s.ds, st.2.tdiv b.s.ds) (gl.1.tdiv b.s.ds, gl.2.tdiv b.s.ds) t
      (edge_window hden hmm ih ht)
    unfold GridB.search at e
    rw [e] at this
    exact ⟨this.1, Keeps.trans ih.keeps this.2.1, this.2.2.1.trans ih.n, this.2.2.2.1.trans ih.bsz⟩

/-! ## C47 -/

/-- **C47.** Whatever searches an object has been used for, a further search with an obstacle threshold of at most 254 — any map, termination
condition, start and goal — ends and reads no cell outside the map.  It raises an exception only if a bucket is full, which cannot happen on
a map of at most max(1000, width + height) cells; otherwise it returns `true` exactly if the cells of start and goal are in the map. -/
theorem bucket_search_total {w h ds mm0 den dyn : Nat} (hden : 1 ≤ den) (hmm : den ≤ mm0 * ds) {b : GridB}
    (r : ReachedB w h ds mm0 den dyn b) (grid : Int → Int → Nat) {thr : Nat} (ht : thr ≤ 254) (st gl : Int × Int) (t : Term) :
    (b.search grid thr st gl t = .error (.bucket .full) ∧ max 1000 (w / ds + h / ds) < w / ds * (h / ds)) ∨
    ∃ v b', b.search grid thr st gl t = .ok (v, b') ∧ (v = true ↔
      (0 ≤ st.1.tdiv ds ∧ st.1.tdiv ds < ↑(w / ds) ∧ 0 ≤ st.2.tdiv ds ∧ st.2.tdiv ds < ↑(h / ds)) ∧
      (0 ≤ gl.1.tdiv ds ∧ gl.1.tdiv ds < ↑(w / ds) ∧ 0 ≤ gl.2.tdiv ds ∧ gl.2.tdiv ds < ↑(h / ds))) := by
  have f := reached_fine hden hmm r
  have := searchB_ok f.btw grid thr (st.1.tdiv b.s.ds, st.2.tdiv b.s.ds) (gl.1.tdiv b.s.ds, gl.2.tdiv b.s.ds) t
    (edge_window hden hmm f ht)
  have eds : b.s.ds = ds := f.keeps.ds
  have eW : b.s.W = w / ds := f.keeps.W
  have eH : b.s.H = h / ds := f.keeps.H
  unfold GridB.search
  cases e : b.searchB grid thr (st.1.tdiv b.s.ds, st.2.tdiv b.s.ds) (gl.1.tdiv b.s.ds, gl.2.tdiv b.s.ds) t with
  | error er =>
    rw [e] at this
    obtain ⟨h1, h2⟩ := this
    rw [eW, eH, f.bsz] at h2
    exact .inl ⟨by rw [h1], h2⟩
  | ok v =>
    right
    rw [e] at this
    obtain ⟨v, b'⟩ := v
    refine ⟨v, b', rfl, ?_⟩
    have hb := this.2.2.2.2.2.1
    rw [within_iff, within_iff, eds, eW, eH] at hb
    rw [hb]
    dsimp only
    tauto

/-- everything known about a search that returned `true` -/
theorem bucket_done {w h ds mm0 den dyn : Nat} (hd : 1 ≤ ds) (hden : 1 ≤ den) (hmm : den ≤ mm0 * ds) {b b' : GridB}
    (r : ReachedB w h ds mm0 den dyn b) {grid : Int → Int → Nat} {thr : Nat} (ht : thr ≤ 254) {st gl : Int × Int} {t : Term}
    (e : b.search grid thr st gl t = .ok (true, b')) {m : Map} (d : Describes m w h ds mm0 den grid thr) :
    Keeps (Grid2D.init w h ds mm0 den) b'.s ∧ b'.s.last = t ∧ b'.s.goal = coarse ds gl ∧ m.Inside (coarse ds st) ∧
    m.Inside (coarse ds gl) ∧ b'.s.mapOf grid thr = m ∧
    Done b' (b'.s.edges grid thr) (b'.s.sid (coarse ds st).1 (coarse ds st).2) (b'.s.sid (coarse ds gl).1 (coarse ds gl).2) := by
  have f := reached_fine hden hmm r
  have := searchB_ok f.btw grid thr (st.1.tdiv b.s.ds, st.2.tdiv b.s.ds) (gl.1.tdiv b.s.ds, gl.2.tdiv b.s.ds) t
    (edge_window hden hmm f ht)
  have k := f.keeps
  unfold GridB.search at e
  rw [e] at this
  obtain ⟨_, k2, _, _, hg, hb, hdn⟩ := this
  change Keeps b.s b'.s at k2
  change b'.s.goal = _ at hg
  have k3 := Keeps.trans k k2
  have eds : b.s.ds = ds := k.ds
  rw [eds] at hg hb hdn
  have hb := hb.mp rfl
  obtain ⟨hl, hdn⟩ := hdn rfl
  refine ⟨k3, hl, hg, (inside_map d k).mpr hb.1, (inside_map d k).mpr hb.2, describes_eq hd d k3, ?_⟩
  have e1 : b'.s.edges grid thr = b.s.edges grid thr := by
    funext i
    unfold edges
    congr 1
    funext dd
    have e1 : b'.s.within = b.s.within := within_keeps k2
    have e2 : b'.s.px = b.s.px := by funext x; simp only [px, k2.W]
    have e3 : b'.s.py = b.s.py := by funext x; simp only [py, k2.W]
    have e4 : b'.s.sid = b.s.sid := sid_keeps k2
    have e5 : b'.s.moveMult = b.s.moveMult := by funext x y z w; simp only [moveMult, k2.ds]
    have e6 : b'.s.dist = b.s.dist := by funext x; simp only [dist, k2.mm, k2.den]
    unfold edge?
    rw [e1, e2, e3, e4, e5, e6]
  rw [e1, sid_keeps k2]
  exact hdn

theorem front {b : GridB} {E : Nat → List (Nat × Nat)} {i0 gl : Nat} (d : Done b E i0 gl) :
    b.s.largest ≤ INF ∧ ∃ cl : Nat → Bool, (∀ t n, Walk E i0 t n → cl t = true ∨ INF ≤ n ∨ b.s.largest ≤ n) ∧
      (∀ j, cl j = true → b.s.it j = b.s.iter ∧ ∀ n, Walk E i0 j n → b.s.g j ≤ n) ∧
      (∀ j, b.s.it j = b.s.iter → b.s.g j ≤ INF ∧ (b.s.g j = INF ∨ Walk E i0 j (b.s.g j))) := by
  obtain ⟨cl, L, H, p, o, hl⟩ := d.ok
  have hL : b.s.largest ≤ INF := by
    rcases hl with ⟨_, h⟩ | ⟨y, L', e, h, _⟩
    · rw [h]
    · rw [h]
      refine o.gle y (o.ent (y, p) (by rw [e]; simp)).1
  refine ⟨hL, cl, ?_, fun j hj => ⟨o.clAcc j hj, o.opt j hj⟩, fun j hj => ⟨o.gle j hj, o.walk j hj⟩⟩
  intro t n w
  rcases walk_front o w with q | q | ⟨e, he, hk⟩
  · exact .inl q
  · exact .inr (.inl q)
  · right; right
    rcases hl with ⟨h, _⟩ | ⟨y, L', e1, h, _⟩
    · rw [h] at he; cases he
    · rw [h]
      have h1 := o.ent (y, p) (by rw [e1]; simp)
      have r := o.r
      rw [e1] at r he
      have := GridB.R.head_le r e he
      simp only at h1
      omega

theorem bval_le {b : GridB} {E : Nat → List (Nat × Nat)} {i0 gl : Nat} (d : Done b E i0 gl) (i : Nat) : b.s.val i ≤ INF := by
  obtain ⟨hL, cl, _, _, h3⟩ := front d
  unfold val; split
  next q => exact (h3 i q.1).1
  next => exact hL

theorem bval_lower {b : GridB} {E : Nat → List (Nat × Nat)} {i0 gl : Nat} (d : Done b E i0 gl) {i n : Nat} (w : Walk E i0 i n) :
    b.s.val i ≤ n := by
  have hle := bval_le d i
  obtain ⟨hL, cl, h1, h2, h3⟩ := front d
  rcases h1 i n w with q | q | q
  · obtain ⟨a1, a2⟩ := h2 i q
    have := a2 n w
    unfold val; split
    next => exact this
    next r =>
      have : ¬ b.s.g i ≤ b.s.largest := fun r' => r ⟨a1, r'⟩
      omega
  · omega
  · unfold val at *; split
    next r => omega
    next r => omega

theorem bval_exact {b : GridB} {E : Nat → List (Nat × Nat)} {i0 gl : Nat} (d : Done b E i0 gl) {i : Nat}
    (hl : b.s.val i < b.s.largest) : Walk E i0 i (b.s.val i) := by
  obtain ⟨hL, cl, h1, h2, h3⟩ := front d
  unfold val at *
  split at hl
  next q =>
    rcases (h3 i q.1).2 with r | r
    · rw [r] at hl; omega
    · rw [if_pos q]; exact r
  next q => omega

/-- **C47.** After a successful search (threshold at most 254, termination condition other than OPTPATHFOUND), for every cell of the map, the goal
included: the value reported is a lower bound on the cost of every way from the start to the cell, it is the cost of an actual way whenever
it is below getlargestcomputedoptimalf_inmm(), and it never exceeds that value or INFINITECOST. -/
theorem bucket_lower_bounds {w h ds mm0 den dyn : Nat} (hd : 1 ≤ ds) (hden : 1 ≤ den) (hmm : den ≤ mm0 * ds) {b b' : GridB}
    (r : ReachedB w h ds mm0 den dyn b) {grid : Int → Int → Nat} {thr : Nat} (ht : thr ≤ 254) {st gl : Int × Int} {t : Term}
    (hto : t ≠ .optPath) (e : b.search grid thr st gl t = .ok (true, b')) {m : Map} (d : Describes m w h ds mm0 den grid thr)
    (c : Int × Int) (hc : m.Inside (coarse ds c)) :
    (∀ n, m.Way (coarse ds st) (coarse ds c) n → b'.lowerBound c.1 c.2 ≤ n) ∧
    (b'.lowerBound c.1 c.2 < b'.s.largest → ∃ n : Nat, b'.lowerBound c.1 c.2 = n ∧ m.Way (coarse ds st) (coarse ds c) n) ∧
    b'.lowerBound c.1 c.2 ≤ b'.s.largest ∧ b'.lowerBound c.1 c.2 ≤ INFINITECOST := by
  obtain ⟨k, hl, hg, i1, i2, hm, hdn⟩ := bucket_done hd hden hmm r ht e d
  have ht' : b'.s.last ≠ .optPath := by rw [hl]; exact hto
  unfold GridB.lowerBound
  rw [lowerBound_val ht']
  have eds : b'.s.ds = ds := k.ds
  rw [eds]
  have w1 := (inside_map d k).mp i1
  have w2 := (inside_map d k).mp hc
  refine ⟨?_, ?_, ?_, ?_⟩
  · intro n w
    rw [← hm] at w
    exact_mod_cast bval_lower hdn ((walk_iff_way w1 w2).mpr w)
  · intro hlt
    refine ⟨_, rfl, ?_⟩
    rw [← hm]
    exact (walk_iff_way w1 w2).mp (bval_exact hdn (by exact_mod_cast hlt))
  · have : b'.s.val (b'.s.sid (c.1.tdiv ds) (c.2.tdiv ds)) ≤ b'.s.largest := by unfold val; split <;> omega
    exact_mod_cast this
  · exact_mod_cast bval_le hdn _

/-- **C47.** With OPTPATHFOUND the value reported is a lower bound as well, unless the cost of the way plus the distance to the goal reaches
INFINITECOST.  (`H`: the heuristic distance, rounded down to millimetres.) -/
theorem bucket_lower_optpath {w h ds mm0 den dyn : Nat} (hd : 1 ≤ ds) (hden : 1 ≤ den) (hmm : den ≤ mm0 * ds) {b b' : GridB}
    (r : ReachedB w h ds mm0 den dyn b) {grid : Int → Int → Nat} {thr : Nat} (ht : thr ≤ 254) {st gl : Int × Int}
    (e : b.search grid thr st gl .optPath = .ok (true, b')) {m : Map} (d : Describes m w h ds mm0 den grid thr)
    (c : Int × Int) (hc : m.Inside (coarse ds c)) (n : Nat) (wy : m.Way (coarse ds st) (coarse ds c) n) :
    b'.lowerBound c.1 c.2 ≤ n ∨ INFINITECOST ≤ n + mm0 * ds *
      (max |(coarse ds c).1 - (coarse ds gl).1| |(coarse ds c).2 - (coarse ds gl).2|).toNat / den := by
  obtain ⟨k, hl, hg, i1, i2, hm, hdn⟩ := bucket_done hd hden hmm r ht e d
  have eds : b'.s.ds = ds := k.ds
  have emm : b'.s.mm = mm0 * ds := k.mm
  have eden : b'.s.den = den := k.den
  obtain ⟨hL, cl, h1, h2, h3⟩ := front hdn
  rw [← hm] at wy
  have w' := (walk_iff_way ((inside_map d k).mp i1) ((inside_map d k).mp hc)).mpr wy
  have hh : mm0 * ds * (max |(coarse ds c).1 - (coarse ds gl).1| |(coarse ds c).2 - (coarse ds gl).2|).toNat / den =
      b'.s.heur (coarse ds c).1 (coarse ds c).2 := by unfold heur; rw [hg, emm, eden]
  rw [hh]
  by_cases hbig : INFINITECOST ≤ n + b'.s.heur (coarse ds c).1 (coarse ds c).2
  · exact .inr hbig
  left
  unfold GridB.lowerBound Grid2D.lowerBound
  dsimp only
  rw [if_pos hl, eds]
  change (if b'.s.it (b'.s.sid (coarse ds c).1 (coarse ds c).2) = b'.s.iter ∧
      b'.s.g (b'.s.sid (coarse ds c).1 (coarse ds c).2) + b'.s.heur (coarse ds c).1 (coarse ds c).2 ≤ b'.s.largest then
        (b'.s.g (b'.s.sid (coarse ds c).1 (coarse ds c).2) : Int)
      else if b'.s.largest < INFINITECOST then (b'.s.largest : Int) - b'.s.heur (coarse ds c).1 (coarse ds c).2 else INFINITECOST) ≤ n
  rcases h1 _ n w' with q | q | q
  · obtain ⟨a1, a2⟩ := h2 _ q
    have := a2 n w'
    split
    next => exact_mod_cast this
    next r1 =>
      have : ¬ b'.s.g (b'.s.sid (coarse ds c).1 (coarse ds c).2) + b'.s.heur (coarse ds c).1 (coarse ds c).2 ≤ b'.s.largest :=
        fun r' => r1 ⟨a1, r'⟩
      split <;> omega
  · exact absurd (Nat.le_trans q (Nat.le_add_right _ _)) hbig
  · split
    next r1 => omega
    next r1 =>
      split
      next => omega
      next r2 => exact absurd (Nat.le_trans (Nat.le_trans (Nat.not_lt.mp r2) q) (Nat.le_add_right _ _)) hbig

/-! ## C48 -/

theorem dist_pos {w h ds mm0 den : Nat} (hden : 1 ≤ den) (hmm : den ≤ mm0 * ds) {m : Map} {grid : Int → Int → Nat} {thr : Nat}
    (d : Describes m w h ds mm0 den grid thr) {p q : Cell} {c : Nat} (mv : m.Move p q c) : 1 ≤ c := by
  obtain ⟨_, _, len, v, hl, _, _, _, hc⟩ := mv
  rw [d.mm, d.den] at hl
  have h1 : 1 ≤ mm0 * ds / den := Nat.div_pos hmm hden
  have h2 : den * 1000 ≤ mm0 * ds * 1414 := by nlinarith
  have h3 : den * 1000 ≤ mm0 * ds * 2236 := by nlinarith
  have h4 : 1 ≤ mm0 * ds * 1414 / (den * 1000) := Nat.div_pos h2 (by omega)
  have h5 : 1 ≤ mm0 * ds * 2236 / (den * 1000) := Nat.div_pos h3 (by omega)
  have hlen : 1 ≤ len := by
    unfold moveLen at hl
    split at hl
    · cases hl; exact h1
    · split at hl
      · cases hl; exact h4
      · split at hl
        · cases hl; exact h5
        · cases hl
  rw [hc]
  exact Nat.mul_pos (by omega) hlen

/-- **C48.** If all cells are asked for and the cells of start and goal differ, the value reported for every cell is the cost of a cheapest way from the start
(INFINITECOST if there is none below). -/
theorem bucket_allcells_exact {w h ds mm0 den dyn : Nat} (hd : 1 ≤ ds) (hden : 1 ≤ den) (hmm : den ≤ mm0 * ds) {b b' : GridB}
    (r : ReachedB w h ds mm0 den dyn b) {grid : Int → Int → Nat} {thr : Nat} (ht : thr ≤ 254) {st gl : Int × Int}
    (hne : coarse ds st ≠ coarse ds gl) (e : b.search grid thr st gl .allCells = .ok (true, b')) {m : Map}
    (d : Describes m w h ds mm0 den grid thr) (c : Int × Int) (hc : m.Inside (coarse ds c)) :
    m.Dist INFINITECOST (coarse ds st) (coarse ds c) (b'.lowerBound c.1 c.2) := by
  obtain ⟨l1, l2, l3, l4⟩ := bucket_lower_bounds hd hden hmm r ht (by decide) e d c hc
  obtain ⟨k, hl, hg, i1, i2, hm, hdn⟩ := bucket_done hd hden hmm r ht e d
  have hL : b'.s.largest = INFINITECOST := by
    obtain ⟨cl, L, H, p, o, h | ⟨y, L', e1, h2, h3⟩⟩ := hdn.ok
    · exact h.2
    · exfalso
      rw [hl] at h3
      simp only [Term.factor] at h3
      have g0 : b'.s.g (b'.s.sid (coarse ds gl).1 (coarse ds gl).2) = 0 := by omega
      rcases o.walk _ o.goalAcc with q | q
      · rw [g0] at q; cases q
      · rw [g0] at q
        have w := (walk_iff_way ((inside_map d k).mp i1) ((inside_map d k).mp i2)).mp q
        rw [hm] at w
        generalize hz : (0 : Nat) = z at w
        generalize coarse ds st = P at w hne
        generalize coarse ds gl = Q at w hne
        cases w with
        | nil => exact hne rfl
        | snoc w1 mv =>
          have := dist_pos hden hmm d mv
          omega
  refine ⟨l4, ?_, l1⟩
  rw [hL] at l2
  rcases lt_or_eq_of_le l4 with q | q
  · obtain ⟨n, h1, h2⟩ := l2 q
    exact .inr ⟨n, h1, h2⟩
  · exact .inl q

end Sbpl.GridBProps
