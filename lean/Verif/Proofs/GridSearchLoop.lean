import Verif.Proofs.GridSearch
import Mathlib.Tactic.IntervalCases
/-! Main loop of the grid search, and the geometry of the grid. -/

namespace Sbpl.Grid2D
open GraphSpec Heap

/-! ## geometry -/

theorem within_iff {s : Grid2D} {x y : Int} : s.within x y = true ↔ 0 ≤ x ∧ 0 ≤ y ∧ x < s.W ∧ y < s.H := by
  simp [within]

theorem sid_lt {s : Grid2D} {x y : Int} (h : s.within x y = true) : s.sid x y < s.W * s.H := by
  obtain ⟨h1, h2, h3, h4⟩ := within_iff.mp h
  unfold sid
  have a : x.toNat + 1 ≤ s.W := by omega
  have b : y.toNat + 1 ≤ s.H := by omega
  have := Nat.mul_le_mul_left s.W b
  rw [Nat.mul_add] at this; omega

theorem px_sid {s : Grid2D} {x y : Int} (h : s.within x y = true) : s.px (s.sid x y) = x := by
  obtain ⟨h1, h2, h3, h4⟩ := within_iff.mp h
  unfold px sid
  rw [Nat.add_mul_mod_self_left, Nat.mod_eq_of_lt (by omega)]; omega

theorem py_sid {s : Grid2D} {x y : Int} (h : s.within x y = true) : s.py (s.sid x y) = y := by
  obtain ⟨h1, h2, h3, h4⟩ := within_iff.mp h
  unfold py sid
  rw [Nat.add_mul_div_left _ _ (by omega), Nat.div_eq_of_lt (by omega)]; omega

theorem within_id {s : Grid2D} {i : Nat} (h : i < s.W * s.H) : s.within (s.px i) (s.py i) = true := by
  have hW : 0 < s.W := by
    rcases Nat.eq_zero_or_pos s.W with q | q
    · rw [q] at h; simp at h
    · exact q
  have h1 := Nat.mod_lt i hW
  have h2 : i / s.W < s.H := Nat.div_lt_of_lt_mul h
  rw [within_iff]
  unfold px py
  exact ⟨Int.natCast_nonneg _, Int.natCast_nonneg _, Int.ofNat_lt.mpr h1, Int.ofNat_lt.mpr h2⟩

theorem sid_id {s : Grid2D} (i : Nat) : s.sid (s.px i) (s.py i) = i := by
  simp only [sid, px, py, Int.toNat_natCast]
  exact Nat.mod_add_div i s.W

/-- the intermediate cells of a move lie between its ends -/
theorem dirs_between : ∀ d ∈ gridDirs, d.small = false →
    (min 0 d.dx ≤ d.i0.1 ∧ d.i0.1 ≤ max 0 d.dx ∧ min 0 d.dy ≤ d.i0.2 ∧ d.i0.2 ≤ max 0 d.dy) ∧
    (min 0 d.dx ≤ d.i1.1 ∧ d.i1.1 ≤ max 0 d.dx ∧ min 0 d.dy ≤ d.i1.2 ∧ d.i1.2 ≤ max 0 d.dy) := by decide

theorem within_between {s : Grid2D} {x y dx dy ex ey : Int} (h : s.within x y = true) (h2 : s.within (x + dx) (y + dy) = true)
    (b : min 0 dx ≤ ex ∧ ex ≤ max 0 dx ∧ min 0 dy ≤ ey ∧ ey ≤ max 0 dy) : s.within (x + ex) (y + ey) = true := by
  rw [within_iff] at *
  omega

/-- the cost factor of a move: the largest cost of the cells it touches -/
def moveMult (s : Grid2D) (grid : Int → Int → Nat) (x y : Int) (d : GDir) : Nat :=
  let a := max (cost s.ds grid (x + d.dx) (y + d.dy)) (cost s.ds grid x y)
  if d.small then a else max (max a (cost s.ds grid (x + d.i0.1) (y + d.i0.2))) (cost s.ds grid (x + d.i1.1) (y + d.i1.2))

/-- no access outside the map -/
theorem moveCost_eq {s : Grid2D} {grid : Int → Int → Nat} {thr : Nat} {x y : Int} {d : GDir} (hd : d ∈ gridDirs)
    (h : s.within x y = true) : s.moveCost grid thr x y d =
      .ok (if s.within (x + d.dx) (y + d.dy) = true ∧ s.moveMult grid x y d < thr then some ((s.moveMult grid x y d + 1) * s.dist d)
        else none) := by
  unfold moveCost
  by_cases h2 : s.within (x + d.dx) (y + d.dy) = true
  swap
  · rw [if_pos (by simpa using h2), if_neg (fun q => h2 q.1)]
  rw [if_neg (by simp [h2])]
  simp only [costAt, h, h2, if_true]
  unfold moveMult
  by_cases hs : d.small = true
  · simp only [hs, if_true, true_and]
    congr 1
    split <;> split <;> first | rfl | omega
  · have hs' : d.small = false := by simpa using hs
    obtain ⟨b1, b2⟩ := dirs_between d hd hs'
    simp only [hs', Bool.false_eq_true, if_false, within_between h h2 b1, within_between h h2 b2, if_true, true_and]
    congr 1
    split <;> split <;> first | rfl | omega

/-- the edge of direction `d`, if any -/
def edge? (s : Grid2D) (grid : Int → Int → Nat) (thr i : Nat) (d : GDir) : Option (Nat × Nat) :=
  if s.within (s.px i + d.dx) (s.py i + d.dy) = true ∧ s.moveMult grid (s.px i) (s.py i) d < thr then
    some (s.sid (s.px i + d.dx) (s.py i + d.dy), (s.moveMult grid (s.px i) (s.py i) d + 1) * s.dist d)
  else none

/-- the graph searched -/
def edges (s : Grid2D) (grid : Int → Int → Nat) (thr i : Nat) : List (Nat × Nat) := gridDirs.filterMap (s.edge? grid thr i)

theorem edge?_congr {a b : Grid2D} (f : Frame a b) (grid : Int → Int → Nat) (thr i : Nat) (d : GDir) :
    b.edge? grid thr i d = a.edge? grid thr i d := by
  have e1 : b.within = a.within := by funext x y; simp only [within, f.W, f.H]
  have e2 : b.px = a.px := by funext x; simp only [px, f.W]
  have e3 : b.py = a.py := by funext x; simp only [py, f.W]
  have e4 : b.sid = a.sid := by funext x y; simp only [sid, f.W]
  have e5 : b.moveMult = a.moveMult := by funext x y z w; simp only [moveMult, f.ds]
  have e6 : b.dist = a.dist := by funext x; simp only [dist, f.mm, f.den]
  unfold edge?
  rw [e1, e2, e3, e4, e5, e6]

theorem edges_congr {a b : Grid2D} (f : Frame a b) (grid : Int → Int → Nat) (thr : Nat) :
    b.edges grid thr = a.edges grid thr := by
  funext i
  unfold edges
  congr 1
  funext d
  exact edge?_congr f grid thr i d

theorem relax_frame {s s' : Grid2D} {i j c : Nat} (h : s.relax i j c = .ok s') : Frame s s' := by
  unfold relax at h
  split at h
  · dsimp only at h
    split at h
    · cases h; exact ⟨rfl, rfl, rfl, rfl, rfl, rfl, rfl, rfl⟩
    · cases h
  · cases h; exact Frame.refl s

theorem expandDirs_eq {grid : Int → Int → Nat} {thr i : Nat} {cl : Nat → Bool} (ds : List GDir) : ∀ {s : Grid2D},
    i < s.W * s.H → (∀ d ∈ ds, d ∈ gridDirs) →
    expandDirs grid thr cl i ds s = relaxL cl i (ds.filterMap (s.edge? grid thr i)) s := by
  induction ds with
  | nil => intro s _ _; rfl
  | cons d ds ih =>
    intro s hi hd
    have hd' : ∀ d ∈ ds, d ∈ gridDirs := fun d h => hd d (by simp [h])
    unfold expandDirs
    dsimp only
    rw [List.filterMap_cons]
    rw [moveCost_eq (hd d (by simp)) (within_id hi)]
    by_cases h2 : s.within (s.px i + d.dx) (s.py i + d.dy) = true
    swap
    · have : s.edge? grid thr i d = none := by unfold edge?; rw [if_neg (fun q => h2 q.1)]
      rw [if_pos (by simpa using h2), this]
      exact ih hi hd'
    rw [if_neg (by simp [h2])]
    by_cases h3 : s.moveMult grid (s.px i) (s.py i) d < thr
    · have e : s.edge? grid thr i d = some (s.sid (s.px i + d.dx) (s.py i + d.dy),
          (s.moveMult grid (s.px i) (s.py i) d + 1) * s.dist d) := by unfold edge?; rw [if_pos ⟨h2, h3⟩]
      rw [e]
      simp only [relaxL, if_pos (And.intro h2 h3)]
      split
      · exact ih hi hd'
      · cases e2 : s.relax i (s.sid (s.px i + d.dx) (s.py i + d.dy)) ((s.moveMult grid (s.px i) (s.py i) d + 1) * s.dist d) with
        | error er => rfl
        | ok s1 =>
          have f := relax_frame e2
          simp only
          rw [ih (by rw [f.W, f.H]; exact hi) hd']
          congr 1
          congr 1
          funext d'
          exact edge?_congr f grid thr i d'
    · have e : s.edge? grid thr i d = none := by unfold edge?; rw [if_neg (fun q => h3 q.2)]
      rw [e]
      simp only [if_neg (fun q : _ ∧ _ => h3 q.2)]
      split <;> exact ih hi hd'

theorem edges_lt {s : Grid2D} {grid : Int → Int → Nat} {thr i : Nat} {e : Nat × Nat} (h : e ∈ s.edges grid thr i) :
    e.1 < s.W * s.H := by
  unfold edges at h
  obtain ⟨d, _, h⟩ := List.mem_filterMap.mp h
  unfold edge? at h
  split at h
  next q => cases h; exact sid_lt q.1
  next => cases h

/-! ## main loop -/

theorem goOn_size {s : Grid2D} {gl : Nat} (h : s.goOn gl = true) : s.opn.size ≠ 0 := by
  unfold goOn at h
  simp only [Bool.and_eq_true, Bool.not_eq_true'] at h
  have := h.1
  simpa [isEmpty] using this

theorem mainLoop_ok {grid : Int → Int → Nat} {thr gl i0 N : Nat} {E : Nat → List (Nat × Nat)} (hN : N + 1 < HEAPSIZE)
    (fuel : Nat) : ∀ {s : Grid2D} {cl : Nat → Bool} {L : List Nat}, E = s.edges grid thr → N = s.W * s.H →
    Ok s E i0 gl N cl 0 [] →
    L.Nodup → (∀ j, j ∈ L ↔ cl j = true) → (∀ j ∈ L, j < N) → N ≤ fuel + L.length →
    Good (mainLoop grid thr gl fuel cl s) fun s' => Frame s s' ∧ s'.goOn gl = false ∧ ∃ cl', Ok s' E i0 gl N cl' 0 [] := by
  induction fuel with
  | zero =>
    intro s cl L hE hW o nd hL hlt hf
    unfold mainLoop
    split
    next q =>
      -- all states are closed, yet the list is not empty
      have sz := goOn_size q
      have hk := keyOf_slot o.heap.1 (i := 1) (Nat.le_refl _) (by omega)
      obtain ⟨_, a2, _, a4⟩ := o.key _ _ hk
      have hin : (s.opn.arr 1).st ∉ L := fun h => by rw [(hL _).mp h] at a2; cases a2
      have := nodup_len_le (R := List.range N) (List.nodup_cons.mpr ⟨hin, nd⟩) (by
        intro j hj
        rw [List.mem_range]
        rcases List.mem_cons.mp hj with r | r
        · rw [r]; exact a4
        · exact hlt j r)
      simp at this
      show False
      omega
    next q => exact ⟨Frame.refl s, by simpa using q, cl, o⟩
  | succ fuel ih =>
    intro s cl L hE hW o nd hL hlt hf
    unfold mainLoop
    split
    next q =>
      have sz := goOn_size q
      cases e : s.opn.deleteMin with
      | error er => unfold deleteMin at e; rw [if_neg sz] at e; cases e
      | ok r =>
        obtain ⟨i, h⟩ := r
        obtain ⟨o1, ci, iN, hw⟩ := pop_ok o e
        simp only
        have f1 : Frame s { s with opn := h } := ⟨rfl, rfl, rfl, rfl, rfl, rfl, rfl, rfl⟩
        rw [expandDirs_eq (s := { s with opn := h }) gridDirs (by show i < s.W * s.H; omega) (fun d h => h)]
        have hEi : gridDirs.filterMap (({ s with opn := h } : Grid2D).edge? grid thr i) = E i := by rw [hE]; rfl
        rw [hEi]
        have h2 := relaxL_ok (x := i) (cl := upd cl i true) (by simp) hN (E i) o1 hw (by
          intro e he
          refine ⟨he, ?_⟩
          rw [hE] at he
          rw [hW]; exact edges_lt he)
        cases e2 : relaxL (upd cl i true) i (E i) { s with opn := h } with
        | error er => rw [e2] at h2; exact h2
        | ok s1 =>
          rw [e2] at h2
          obtain ⟨o2, f2⟩ := h2
          have f := f1.trans f2
          have iL : i ∉ L := fun h => by rw [(hL i).mp h] at ci; cases ci
          have h3 := ih (s := s1) (cl := upd cl i true) (L := i :: L) (by rw [hE, edges_congr f]) (by rw [f.W, f.H]; exact hW)
            (o2.any 0) (List.nodup_cons.mpr ⟨iL, nd⟩) (by
              intro j
              by_cases r : j = i
              · simp [r]
              · rw [upd_other _ _ r]; simp [r, hL j]) (by
              intro j hj
              rcases List.mem_cons.mp hj with r | r
              · rw [r]; exact iN
              · exact hlt j r) (by simp; omega)
          simp only
          cases e3 : mainLoop grid thr gl fuel (upd cl i true) s1 with
          | error er => rw [e3] at h3; exact h3
          | ok s2 =>
            rw [e3] at h3
            exact ⟨f.trans h3.1, h3.2⟩
    next q => exact ⟨Frame.refl s, by simpa using q, cl, o⟩

/-! ## the whole search -/

/-- valid between searches -/
structure Between (s : Grid2D) : Prop where
  heap : BP s.opn ∧ Ordered s.opn
  le : ∀ j, s.it j ≤ s.iter

theorem init_between (w h ds mm0 den : Nat) : Between (init w h ds mm0 den) := by
  refine ⟨⟨⟨?_, ?_⟩, ?_⟩, fun _ => Nat.le_refl _⟩
  · intro i h1 h2; simp [init, Heap.mk0] at h2; omega
  · intro s h; simp [init, Heap.mk0] at h
  · intro i h1 h2; simp [init, Heap.mk0] at h2; omega

/-- what a completed search leaves behind -/
structure Done (s : Grid2D) (E : Nat → List (Nat × Nat)) (i0 gl : Nat) : Prop where
  ok : ∃ cl, Ok s E i0 gl (s.W * s.H) cl 0 []
  stop : s.goOn gl = false
  largest : s.largest = if s.opn.isEmpty then INFINITECOST else (s.opn.getMinKey (INFINITECOST : Int)).toNat

/-- fields set by a search -/
structure Keeps (a b : Grid2D) : Prop where
  W : b.W = a.W
  H : b.H = a.H
  ds : b.ds = a.ds
  mm : b.mm = a.mm
  den : b.den = a.den

theorem idx_zero_eq {h : Heap Int} {i : Nat} (hz : h.idx i = 0) : ({ h with idx := upd h.idx i 0 } : Heap Int) = h := by
  have : upd h.idx i 0 = h.idx := by
    funext j; simp only [upd]; split
    next q => rw [q, hz]
    next => rfl
  rw [this]

theorem searchHeap_ok {s : Grid2D} (hb : Between s) (grid : Int → Int → Nat) (thr : Nat) (st gl : Int × Int) (t : Term)
    (hN : s.W * s.H + 1 < HEAPSIZE) :
    Good (s.searchHeap grid thr st gl t) fun r => Between r.2 ∧ Keeps s r.2 ∧ r.2.goal = gl ∧ r.2.last = t ∧
      (r.1 = true ↔ s.within st.1 st.2 = true ∧ s.within gl.1 gl.2 = true) ∧
      (r.1 = true → Done r.2 (s.edges grid thr) (s.sid st.1 st.2) (s.sid gl.1 gl.2)) := by
  obtain ⟨m1, m2, m3, m4, _⟩ := makeEmpty_spec hb.heap.1
  unfold searchHeap
  dsimp only
  have mz : ∀ j, s.opn.makeEmpty.idx j = 0 := by
    intro j; have := m2 j; simpa [keyOf] using this
  split
  next h =>
    refine ⟨⟨⟨m1, m4⟩, fun j => Nat.le_succ_of_le (hb.le j)⟩, ⟨rfl, rfl, rfl, rfl, rfl⟩, rfl, rfl, ?_, by simp⟩
    simp only [Bool.false_eq_true, false_iff]
    rintro ⟨a, b⟩
    rcases h with h | h
    · change s.within st.1 st.2 = false at h; rw [a] at h; cases h
    · change s.within gl.1 gl.2 = false at h; rw [b] at h; cases h
  next h =>
    have hst : s.within st.1 st.2 = true := by
      by_contra q; exact h (.inl (Bool.eq_false_iff.mpr q))
    have hgl : s.within gl.1 gl.2 = true := by
      by_contra q; exact h (.inr (Bool.eq_false_iff.mpr q))
    have i0lt := sid_lt hst
    have iglt := sid_lt hgl
    -- the state before the loop
    have e2 : ∀ a : Grid2D, (∀ j, a.opn.idx j = 0) → ∀ i, a.initState i = { a with g := upd a.g i INFINITECOST, it := upd a.it i a.iter } := by
      intro a ha i
      unfold initState
      rw [idx_zero_eq (ha i)]
    rw [e2 { s with iter := s.iter + 1, goal := gl, opn := s.opn.makeEmpty, last := t } mz]
    rw [e2 _ mz]
    generalize hi0 : sid { s with iter := s.iter + 1, goal := gl, opn := s.opn.makeEmpty, last := t } st.1 st.2 = i0
    generalize hig : sid { s with iter := s.iter + 1, goal := gl, opn := s.opn.makeEmpty, last := t } gl.1 gl.2 = ig
    change s.sid st.1 st.2 = i0 at hi0
    change s.sid gl.1 gl.2 = ig at hig
    rw [hi0] at i0lt ⊢
    rw [hig] at iglt ⊢
    dsimp only
    generalize hs3 : ({ s with iter := s.iter + 1, goal := gl, opn := s.opn.makeEmpty, last := t,
                               g := upd (upd (upd s.g i0 INFINITECOST) ig INFINITECOST) i0 0,
                               it := upd (upd s.it i0 (s.iter + 1)) ig (s.iter + 1) } : Grid2D) = s3
    have op3 : s3.opn = s.opn.makeEmpty := by subst hs3; rfl
    have it3 : s3.iter = s.iter + 1 := by subst hs3; rfl
    have acc3 : ∀ j, s3.it j = s3.iter ↔ j = i0 ∨ j = ig := by
      intro j; subst hs3
      have := hb.le j
      show upd (upd s.it i0 (s.iter + 1)) ig (s.iter + 1) j = s.iter + 1 ↔ _
      simp only [upd]
      split
      · simp [*]
      · split
        · simp [*]
        · constructor
          · intro q; omega
          · rintro (q | q) <;> contradiction
    have g3 : ∀ j, j = i0 ∨ j = ig → s3.g j = if j = i0 then 0 else INF := by
      intro j hj; subst hs3
      show upd (upd (upd s.g i0 INFINITECOST) ig INFINITECOST) i0 0 j = _
      simp only [upd]
      split
      · rfl
      · rcases hj with q | q
        · contradiction
        · simp [q]
    have le3 : ∀ j, s3.it j ≤ s3.iter := by
      intro j; subst hs3
      have := hb.le j
      show upd (upd s.it i0 (s.iter + 1)) ig (s.iter + 1) j ≤ s.iter + 1
      simp only [upd]; split
      · exact Nat.le_refl _
      · split <;> omega
    have k3 : Keeps s s3 := by subst hs3; exact ⟨rfl, rfl, rfl, rfl, rfl⟩
    have gl3 : s3.goal = gl := by subst hs3; rfl
    have la3 : s3.last = t := by subst hs3; rfl
    have ed3 : s3.edges grid thr = s.edges grid thr := by subst hs3; rfl
    have sh : ∀ h : Heap Int, ({ s with iter := s.iter + 1, goal := gl, opn := h, last := t, g := upd (upd (upd s.g i0 INFINITECOST) ig INFINITECOST) i0 0, it := upd (upd s.it i0 (s.iter + 1)) ig (s.iter + 1) } : Grid2D) = { s3 with opn := h } := by
      intro h; subst hs3; rfl
    clear hs3
    obtain ⟨h1, e⟩ := (insert_ok_iff s3.opn i0 ((s3.key i0 : Nat) : Int)).mpr
      ⟨by rw [op3, m3]; decide, by rw [op3]; exact m2 i0⟩
    have e' := e
    rw [op3] at e'
    rw [e']
    dsimp only
    rw [sh h1]
    obtain ⟨b1, b2, b3, b4, _⟩ := insert_spec (by rw [op3]; exact m1) e
    have o : Ok { s3 with opn := h1 } (s.edges grid thr) i0 ig (s.W * s.H) (fun _ => false) 0 [] := by
      constructor
      · exact ⟨b1, b4 (by rw [op3]; exact m4)⟩
      · exact le3
      · intro j k hk
        change keyOf h1 j = some k at hk
        rw [b2, op3] at hk
        by_cases q : j = i0
        · rw [q, upd_same] at hk
          cases hk
          subst q
          refine ⟨(acc3 j).mpr (.inl rfl), rfl, ?_, i0lt⟩
          rw [key_eq]; rfl
        · rw [upd_other _ _ q, m2 j] at hk; cases hk
      · intro j hj; cases hj
      · intro j hj
        show s3.g j ≤ INF
        rw [g3 j ((acc3 j).mp hj)]; split
        · exact Nat.zero_le _
        · exact Nat.le_refl _
      · intro j hj
        show s3.g j = INF ∨ Walk _ i0 j (s3.g j)
        rw [g3 j ((acc3 j).mp hj)]; split
        next q => rw [q]; exact .inr .nil
        next q => exact .inl rfl
      · exact (acc3 i0).mpr (.inl rfl)
      · show s3.g i0 = 0
        rw [g3 i0 (.inl rfl), if_pos rfl]
      · exact (acc3 ig).mpr (.inr rfl)
      · intro j hj _ hg
        show keyOf h1 j ≠ none
        change s3.g j < INF at hg
        rw [g3 j ((acc3 j).mp hj)] at hg
        split at hg
        next q => rw [q, b2, upd_same]; simp
        next q => omega
      · intro _ j hj; cases hj
      · intro _ j hj; cases hj
    have h4 := mainLoop_ok (grid := grid) (thr := thr) (gl := ig) (i0 := i0) (N := s.W * s.H) (E := s.edges grid thr) hN
      (s.W * s.H) (s := { s3 with opn := h1 }) (cl := fun _ => false) (L := []) (by rw [← ed3]; rfl)
      (by show _ = s3.W * s3.H; rw [k3.W, k3.H]) o List.nodup_nil (by simp) (by simp) (by simp)
    cases e5 : mainLoop grid thr ig (s.W * s.H) (fun _ => false) { s3 with opn := h1 } with
    | error er => rw [e5] at h4; exact h4
    | ok s4 =>
      rw [e5] at h4
      obtain ⟨f4, st4, cl, o4⟩ := h4
      have kk : Keeps s s4 := ⟨f4.W.trans k3.W, f4.H.trans k3.H, f4.ds.trans k3.ds, f4.mm.trans k3.mm, f4.den.trans k3.den⟩
      refine ⟨⟨o4.heap, o4.le⟩, ⟨kk.W, kk.H, kk.ds, kk.mm, kk.den⟩, f4.goal.trans gl3, f4.last.trans la3, by simp [hst, hgl], fun _ => ?_⟩
      refine ⟨⟨cl, ?_⟩, st4, rfl⟩
      have : s4.W * s4.H = s.W * s.H := by rw [kk.W, kk.H]
      show Ok _ _ _ _ (s4.W * s4.H) _ _ _
      rw [this]
      exact ⟨o4.heap, o4.le, o4.key, o4.clAcc, o4.gle, o4.walk, o4.startAcc, o4.start, o4.goalAcc, o4.openIn, o4.opt, o4.rel⟩

end Sbpl.Grid2D
