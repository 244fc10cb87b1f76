import Verif.Spec.GridSearch
import Verif.Proofs.GridSearchLoop
/-! The graph searched by the program is the one of the specification. -/

namespace Sbpl.Grid2D
open GraphSpec Heap GridSpec

/-! ## block costs -/

theorem foldl_max_mem {α : Type} (f : α → Nat) (l : List α) (m : Nat) :
    m ≤ l.foldl (fun m a => max m (f a)) m ∧ (∀ a ∈ l, f a ≤ l.foldl (fun m a => max m (f a)) m) ∧
    (l.foldl (fun m a => max m (f a)) m = m ∨ ∃ a ∈ l, l.foldl (fun m a => max m (f a)) m = f a) := by
  induction l generalizing m with
  | nil => simp
  | cons x l ih =>
    obtain ⟨h1, h2, h3⟩ := ih (max m (f x))
    simp only [List.foldl_cons]
    refine ⟨by omega, ?_, ?_⟩
    · intro a ha
      rcases List.mem_cons.mp ha with q | q
      · rw [q]; omega
      · exact h2 a q
    · rcases h3 with h3 | ⟨a, ha, h3⟩
      · rcases Nat.le_total m (f x) with q | q
        · right; exact ⟨x, by simp, by rw [h3]; omega⟩
        · left; rw [h3]; omega
      · right; exact ⟨a, by simp [ha], h3⟩

theorem foldl_foldl_max {α β : Type} (f : α → β → Nat) (l : List α) (l2 : List β) (m : Nat) :
    m ≤ l.foldl (fun m a => l2.foldl (fun m b => max m (f a b)) m) m ∧
    (∀ a ∈ l, ∀ b ∈ l2, f a b ≤ l.foldl (fun m a => l2.foldl (fun m b => max m (f a b)) m) m) ∧
    (l.foldl (fun m a => l2.foldl (fun m b => max m (f a b)) m) m = m ∨
      ∃ a ∈ l, ∃ b ∈ l2, l.foldl (fun m a => l2.foldl (fun m b => max m (f a b)) m) m = f a b) := by
  induction l generalizing m with
  | nil => simp
  | cons x l ih =>
    obtain ⟨g1, g2, g3⟩ := foldl_max_mem (f x) l2 m
    obtain ⟨h1, h2, h3⟩ := ih (l2.foldl (fun m b => max m (f x b)) m)
    simp only [List.foldl_cons]
    refine ⟨Nat.le_trans g1 h1, ?_, ?_⟩
    · intro a ha b hb
      rcases List.mem_cons.mp ha with q | q
      · rw [q]; exact Nat.le_trans (g2 b hb) h1
      · exact h2 a q b hb
    · rcases h3 with h3 | ⟨a, ha, b, hb, h3⟩
      · rcases g3 with g3 | ⟨b, hb, g3⟩
        · left; rw [h3, g3]
        · right; exact ⟨x, by simp, b, hb, by rw [h3, g3]⟩
      · right; exact ⟨a, by simp [ha], b, hb, h3⟩

theorem cost_block {ds : Nat} (hd : 1 ≤ ds) (grid : Int → Int → Nat) (x y : Int) : BlockCost ds grid (x, y) (cost ds grid x y) := by
  obtain ⟨h1, h2, h3⟩ := foldl_foldl_max (fun (dy dx : Nat) => grid (x * ds + dx) (y * ds + dy)) (List.range ds) (List.range ds)
    (grid (x * ds) (y * ds))
  constructor
  · rcases h3 with h3 | ⟨a, ha, b, hb, h3⟩
    · refine ⟨0, 0, hd, hd, ?_⟩
      simp only [Nat.cast_zero, Int.add_zero]
      exact h3
    · exact ⟨b, a, List.mem_range.mp hb, List.mem_range.mp ha, h3⟩
  · intro i j hi hj
    exact h2 j (List.mem_range.mpr hj) i (List.mem_range.mpr hi)

theorem blockCost_unique {ds : Nat} {grid : Int → Int → Nat} {c : Cell} {v w : Nat} (h1 : BlockCost ds grid c v)
    (h2 : BlockCost ds grid c w) : v = w := by
  obtain ⟨⟨i, j, hi, hj, e⟩, b⟩ := h1
  obtain ⟨⟨i', j', hi', hj', e'⟩, b'⟩ := h2
  have := b' i j hi hj
  have := b i' j' hi' hj'
  omega

/-! ## the graph -/

/-- the map a search object searches -/
def mapOf (s : Grid2D) (grid : Int → Int → Nat) (thr : Nat) : Map :=
  { W := s.W, H := s.H, cost := fun c => cost s.ds grid c.1 c.2, thr := thr, mm := s.mm, den := s.den }

theorem inside_iff {s : Grid2D} {grid : Int → Int → Nat} {thr : Nat} {p : Cell} :
    (s.mapOf grid thr).Inside p ↔ s.within p.1 p.2 = true := by
  rw [within_iff]; rfl

/-- every direction, with its length and the cells it touches -/
theorem dir_len (s : Grid2D) : ∀ d ∈ gridDirs, moveLen s.mm s.den d.dx d.dy = some (s.dist d) := by
  intro d hd
  simp only [gridDirs, List.mem_cons, List.not_mem_nil, or_false] at hd
  rcases hd with rfl | rfl | rfl | rfl | rfl | rfl | rfl | rfl | rfl | rfl | rfl | rfl | rfl | rfl | rfl | rfl <;> rfl

theorem dir_touch (p : Cell) : ∀ d ∈ gridDirs, touched p d.dx d.dy =
    if d.small then [p, (p.1 + d.dx, p.2 + d.dy)]
    else [p, (p.1 + d.i0.1, p.2 + d.i0.2), (p.1 + d.i1.1, p.2 + d.i1.2), (p.1 + d.dx, p.2 + d.dy)] := by
  intro d hd
  simp only [gridDirs, List.mem_cons, List.not_mem_nil, or_false] at hd
  rcases hd with rfl | rfl | rfl | rfl | rfl | rfl | rfl | rfl | rfl | rfl | rfl | rfl | rfl | rfl | rfl | rfl <;>
    simp [touched]

theorem dir_complete {mm den len : Nat} {dx dy : Int} (h : moveLen mm den dx dy = some len) :
    ∃ d ∈ gridDirs, d.dx = dx ∧ d.dy = dy := by
  have hx : -2 ≤ dx ∧ dx ≤ 2 ∧ -2 ≤ dy ∧ dy ≤ 2 := by
    have a1 := le_abs_self dx
    have a2 := neg_abs_le dx
    have a3 := le_abs_self dy
    have a4 := neg_abs_le dy
    have a5 := abs_nonneg dx
    have a6 := abs_nonneg dy
    unfold moveLen at h
    split at h
    next q => omega
    next =>
      split at h
      next q => omega
      next =>
        split at h
        next q => omega
        next => cases h
  have key : ∀ x ∈ [(-2 : Int), -1, 0, 1, 2], ∀ y ∈ [(-2 : Int), -1, 0, 1, 2],
      ((|x| + |y| = 1) ∨ (|x| = 1 ∧ |y| = 1) ∨ (|x| + |y| = 3 ∧ |x| ≤ 2 ∧ |y| ≤ 2)) → ∃ d ∈ gridDirs, d.dx = x ∧ d.dy = y := by
    decide +kernel
  refine key dx ?_ dy ?_ ?_
  · simp only [List.mem_cons, List.not_mem_nil, or_false]; omega
  · simp only [List.mem_cons, List.not_mem_nil, or_false]; omega
  · unfold moveLen at h
    split at h
    next q => exact .inl q
    next =>
      split at h
      next q => exact .inr (.inl q)
      next =>
        split at h
        next q => exact .inr (.inr q)
        next => cases h

/-- the cost factor is the largest cost of the cells touched -/
theorem mult_spec {s : Grid2D} {grid : Int → Int → Nat} {d : GDir} (hd : d ∈ gridDirs) (x y : Int) :
    (∃ r ∈ touched (x, y) d.dx d.dy, s.moveMult grid x y d = cost s.ds grid r.1 r.2) ∧
    ∀ r ∈ touched (x, y) d.dx d.dy, cost s.ds grid r.1 r.2 ≤ s.moveMult grid x y d := by
  rw [dir_touch (x, y) d hd]
  unfold moveMult
  dsimp only
  cases hs : d.small
  · simp only [Bool.false_eq_true, if_false, List.mem_cons, List.not_mem_nil, or_false, exists_eq_or_imp, exists_eq_left,
      forall_eq_or_imp, forall_eq]
    omega
  · simp only [if_true, List.mem_cons, List.not_mem_nil, or_false, exists_eq_or_imp, exists_eq_left, forall_eq_or_imp, forall_eq]
    omega

theorem mem_edges {s : Grid2D} {grid : Int → Int → Nat} {thr i : Nat} (hi : i < s.W * s.H) {j c : Nat} :
    (j, c) ∈ s.edges grid thr i ↔ ∃ q : Cell, j = s.sid q.1 q.2 ∧ (s.mapOf grid thr).Move (s.px i, s.py i) q c := by
  unfold edges
  rw [List.mem_filterMap]
  constructor
  · rintro ⟨d, hd, he⟩
    unfold edge? at he
    split at he
    next h =>
      simp only [Option.some.injEq, Prod.mk.injEq] at he
      refine ⟨(s.px i + d.dx, s.py i + d.dy), he.1.symm, inside_iff.mpr (within_id hi), inside_iff.mpr h.1, s.dist d,
        s.moveMult grid (s.px i) (s.py i) d, ?_⟩
      have e1 : s.px i + d.dx - s.px i = d.dx := by omega
      have e2 : s.py i + d.dy - s.py i = d.dy := by omega
      simp only [e1, e2]
      obtain ⟨m1, m2⟩ := mult_spec (s := s) (grid := grid) hd (s.px i) (s.py i)
      exact ⟨dir_len s d hd, m1, m2, h.2, he.2.symm⟩
    next => cases he
  · rintro ⟨q, rfl, hp, hq, len, v, hl, m1, m2, hv, rfl⟩
    simp only at hl m1 m2
    obtain ⟨d, hd, e1, e2⟩ := dir_complete hl
    refine ⟨d, hd, ?_⟩
    rw [← e1, ← e2] at m1 m2 hl
    have hl' := dir_len s d hd
    change moveLen s.mm s.den d.dx d.dy = some len at hl
    rw [hl'] at hl
    obtain ⟨n1, n2⟩ := mult_spec (s := s) (grid := grid) hd (s.px i) (s.py i)
    have hv' : v = s.moveMult grid (s.px i) (s.py i) d := by
      obtain ⟨r, hr, e⟩ := m1
      obtain ⟨r', hr', e'⟩ := n1
      have a := n2 r hr
      have b := m2 r' hr'
      change v = cost s.ds grid r.1 r.2 at e
      change cost s.ds grid r'.1 r'.2 ≤ v at b
      omega
    have q1 : s.px i + d.dx = q.1 := by omega
    have q2 : s.py i + d.dy = q.2 := by omega
    unfold edge?
    rw [q1, q2, if_pos ⟨inside_iff.mp hq, by rw [← hv']; exact hv⟩, ← hv', Option.some.inj hl]

/-- walks in the graph searched are ways of the specification -/
theorem walk_way {s : Grid2D} {grid : Int → Int → Nat} {thr : Nat} {p : Cell} (hp : s.within p.1 p.2 = true) {j n : Nat}
    (w : Walk (s.edges grid thr) (s.sid p.1 p.2) j n) : (s.mapOf grid thr).Way p (s.px j, s.py j) n ∧ j < s.W * s.H := by
  induction w with
  | nil => rw [px_sid hp, py_sid hp]; exact ⟨.nil, sid_lt hp⟩
  | snoc w hm ih =>
    obtain ⟨q, e, mv⟩ := (mem_edges ih.2).mp hm
    have hq := inside_iff.mp mv.2.1
    rw [e, px_sid hq, py_sid hq]
    exact ⟨ih.1.snoc mv, sid_lt hq⟩

theorem way_walk {s : Grid2D} {grid : Int → Int → Nat} {thr : Nat} {p : Cell} (hp : s.within p.1 p.2 = true) {q : Cell} {n : Nat}
    (w : (s.mapOf grid thr).Way p q n) : Walk (s.edges grid thr) (s.sid p.1 p.2) (s.sid q.1 q.2) n ∧ s.within q.1 q.2 = true := by
  induction w with
  | nil => exact ⟨.nil, hp⟩
  | snoc w mv ih =>
    rename_i b t n c
    refine ⟨ih.1.snoc ((mem_edges (sid_lt ih.2)).mpr ⟨t, rfl, ?_⟩), inside_iff.mp mv.2.1⟩
    rw [px_sid ih.2, py_sid ih.2]; exact mv

theorem walk_iff_way {s : Grid2D} {grid : Int → Int → Nat} {thr : Nat} {p q : Cell} (hp : s.within p.1 p.2 = true)
    (hq : s.within q.1 q.2 = true) {n : Nat} :
    Walk (s.edges grid thr) (s.sid p.1 p.2) (s.sid q.1 q.2) n ↔ (s.mapOf grid thr).Way p q n := by
  constructor
  · intro w
    have := (walk_way hp w).1
    rw [px_sid hq, py_sid hq] at this
    exact this
  · intro w; exact (way_walk hp w).1

/-! ## symmetry -/

theorem moveLen_neg (mm den : Nat) (dx dy : Int) : moveLen mm den (-dx) (-dy) = moveLen mm den dx dy := by
  simp only [moveLen, abs_neg]

theorem touched_rev {m : Map} {p q : Cell} {len : Nat} (h : moveLen m.mm m.den (q.1 - p.1) (q.2 - p.2) = some len) (r : Cell) :
    r ∈ touched q (p.1 - q.1) (p.2 - q.2) ↔ r ∈ touched p (q.1 - p.1) (q.2 - p.2) := by
  obtain ⟨d, hd, e1, e2⟩ := dir_complete h
  obtain ⟨px, py⟩ := p
  obtain ⟨qx, qy⟩ := q
  obtain ⟨rx, ry⟩ := r
  simp only at e1 e2
  have h1 : qx = px + d.dx := by omega
  have h2 : qy = py + d.dy := by omega
  subst h1 h2
  clear e1 e2 h
  simp only [gridDirs, List.mem_cons, List.not_mem_nil, or_false] at hd
  rcases hd with rfl | rfl | rfl | rfl | rfl | rfl | rfl | rfl | rfl | rfl | rfl | rfl | rfl | rfl | rfl | rfl <;>
    simp [touched, Prod.ext_iff] <;> omega

theorem move_symm {m : Map} {p q : Cell} {c : Nat} (h : m.Move p q c) : m.Move q p c := by
  obtain ⟨h1, h2, len, v, hl, ⟨r, hr, e⟩, m2, hv, hc⟩ := h
  refine ⟨h2, h1, len, v, ?_, ⟨r, (touched_rev hl r).mpr hr, e⟩, fun r' hr' => m2 r' ((touched_rev hl r').mp hr'), hv, hc⟩
  rw [← hl, ← moveLen_neg]
  congr 1 <;> omega

theorem way_trans {m : Map} {a b c : Cell} {n k : Nat} (w : m.Way a b n) (w2 : m.Way b c k) : m.Way a c (n + k) := by
  induction w2 with
  | nil => exact w
  | snoc _ mv ih => rw [← Nat.add_assoc]; exact ih.snoc mv

theorem way_symm {m : Map} {p q : Cell} {n : Nat} (w : m.Way p q n) : m.Way q p n := by
  induction w with
  | nil => exact .nil
  | @snoc b t n c _ mv ih =>
    have : m.Way t b (0 + c) := Map.Way.nil.snoc (move_symm mv)
    have := way_trans this ih
    rw [Nat.zero_add, Nat.add_comm] at this
    exact this

end Sbpl.Grid2D
