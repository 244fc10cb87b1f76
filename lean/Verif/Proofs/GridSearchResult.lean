import Verif.Proofs.GridSearchSpec
/-! What the values left behind by a search mean. -/

namespace Sbpl.Grid2D
open GraphSpec Heap GridSpec

theorem getMinKey_spec {h : Heap Int} (hb : BP h) (ho : Ordered h) (hz : h.size ≠ 0) (d : Int) :
    (∃ j, keyOf h j = some (h.getMinKey d)) ∧ ∀ j k, keyOf h j = some k → h.getMinKey d ≤ k := by
  have e : h.getMinKey d = (h.arr 1).key := by unfold getMinKey; rw [if_neg hz]
  rw [e]
  refine ⟨⟨(h.arr 1).st, keyOf_slot hb (Nat.le_refl _) (by omega)⟩, ?_⟩
  intro j k hk
  exact min_le hb ho hk

variable {s : Grid2D} {E : Nat → List (Nat × Nat)} {i0 gl N : Nat} {cl : Nat → Bool}

theorem isEmpty_size {h : Heap Int} : h.isEmpty = true ↔ h.size = 0 := by simp [isEmpty]

/-- `largest`, when the list is not empty -/
theorem largest_spec (d : Done s E i0 gl) (o : Ok s E i0 gl N cl 0 []) (hz : s.opn.size ≠ 0) :
    (∃ j, keyOf s.opn j = some (s.largest : Int) ∧ s.it j = s.iter ∧ s.largest = s.g j + s.hk j) ∧
    (∀ j k, keyOf s.opn j = some k → (s.largest : Int) ≤ k) ∧ s.opn.getMinKey (INFINITECOST : Int) = s.largest := by
  obtain ⟨⟨j, hj⟩, hm⟩ := getMinKey_spec o.heap.1 o.heap.2 hz (INFINITECOST : Int)
  obtain ⟨a1, a2, a3, a4⟩ := o.key j _ hj
  have hl : s.largest = s.g j + s.hk j := by
    rw [d.largest, if_neg (by rw [isEmpty_size]; exact hz), a3]; exact Int.toNat_natCast _
  have hl' : s.opn.getMinKey (INFINITECOST : Int) = s.largest := by rw [a3, hl]
  rw [hl'] at hj hm
  exact ⟨⟨j, hj, a1, hl⟩, hm, hl'⟩

theorem largest_empty (d : Done s E i0 gl) (hz : s.opn.size = 0) : s.largest = INF := by
  rw [d.largest, if_pos (isEmpty_size.mpr hz)]

theorem front (d : Done s E i0 gl) (o : Ok s E i0 gl N cl 0 []) (hc : Cons s E) {t n : Nat} (w : Walk E i0 t n) :
    cl t = true ∨ INF ≤ n ∨ s.largest ≤ n + s.hk t := by
  rcases walk_front o hc w with q | q | ⟨y, k, q1, q2⟩
  · exact .inl q
  · exact .inr (.inl q)
  · right; right
    have hz : s.opn.size ≠ 0 := by
      intro h0
      obtain ⟨i, h1, h2, _⟩ := slot_of_keyOf o.heap.1 q1
      omega
    have := (largest_spec d o hz).2.1 y k q1
    omega

/-- the value of the goal has been computed -/
theorem goal_le (d : Done s E i0 gl) (o : Ok s E i0 gl N cl 0 []) :
    s.largest = INF ∨ s.g gl * s.last.factor.2 ≤ s.last.factor.1 * s.largest := by
  by_cases hz : s.opn.size = 0
  · exact .inl (largest_empty d hz)
  · right
    have h := d.stop
    unfold goOn at h
    rw [(largest_spec d o hz).2.2] at h
    have e1 : s.opn.isEmpty = false := by
      rw [Bool.eq_false_iff]; intro q; exact hz (isEmpty_size.mp q)
    rw [e1] at h
    simp only [Bool.not_false, Bool.true_and, decide_eq_false_iff_not, not_lt] at h
    rw [Nat.min_eq_right (o.gle gl o.goalAcc)] at h
    exact_mod_cast h

theorem factor_le (t : Term) : t.factor.1 ≤ t.factor.2 ∧ 0 < t.factor.2 := by cases t <;> decide

theorem goal_le' (d : Done s E i0 gl) (o : Ok s E i0 gl N cl 0 []) : s.g gl ≤ s.largest := by
  rcases goal_le d o with h | h
  · rw [h]; exact o.gle gl o.goalAcc
  · have ⟨f1, f2⟩ := factor_le s.last
    have := Nat.mul_le_mul_right s.largest f1
    by_contra q
    have := Nat.mul_lt_mul_of_pos_right (Nat.not_le.mp q) f2
    have e := Nat.mul_comm s.largest s.last.factor.2
    omega

/-! ## Dijkstra's search -/

theorem hk_zero (h : s.last ≠ .optPath) (j : Nat) : s.hk j = 0 := by unfold hk; rw [if_neg h]

theorem cons_dijkstra (h : s.last ≠ .optPath) : Cons s E := by intro j t c _; rw [hk_zero h]; omega

/-- the value reported for state `i` -/
def val (s : Grid2D) (i : Nat) : Nat := if s.it i = s.iter ∧ s.g i ≤ s.largest then s.g i else s.largest

theorem val_le (h : s.last ≠ .optPath) (d : Done s E i0 gl) (o : Ok s E i0 gl N cl 0 []) (i : Nat) : s.val i ≤ INF := by
  unfold val; split
  next q => exact o.gle i q.1
  next q =>
    by_cases hz : s.opn.size = 0
    · rw [largest_empty d hz]
    · obtain ⟨j, _, a, b⟩ := (largest_spec d o hz).1
      rw [b, hk_zero h]; exact o.gle j a

theorem val_lower (h : s.last ≠ .optPath) (d : Done s E i0 gl) (o : Ok s E i0 gl N cl 0 []) {i n : Nat} (w : Walk E i0 i n) :
    s.val i ≤ n := by
  have := val_le h d o i
  rcases front d o (cons_dijkstra h) w with q | q | q
  · have h1 := o.opt (cons_dijkstra h) i q n w
    have h2 := o.clAcc i q
    unfold val; split
    next => exact h1
    next r =>
      have : ¬ s.g i ≤ s.largest := fun r' => r ⟨h2, r'⟩
      omega
  · omega
  · rw [hk_zero h] at q
    unfold val at *; split
    next r => omega
    next r => omega

theorem val_exact (h : s.last ≠ .optPath) (d : Done s E i0 gl) (o : Ok s E i0 gl N cl 0 []) {i : Nat}
    (hl : s.val i < s.largest) : Walk E i0 i (s.val i) := by
  have hle := val_le h d o i
  have hL : s.largest ≤ INF := by
    by_cases hz : s.opn.size = 0
    · rw [largest_empty d hz]
    · obtain ⟨j, _, a, b⟩ := (largest_spec d o hz).1
      rw [b, hk_zero h]; exact o.gle j a
  unfold val at *
  split at hl
  next q =>
    rcases o.walk i q.1 with r | r
    · rw [r] at hl; omega
    · rw [if_pos q]; exact r
  next q => omega

theorem val_goal (d : Done s E i0 gl) (o : Ok s E i0 gl N cl 0 []) : s.val gl = s.g gl := by
  unfold val; rw [if_pos ⟨o.goalAcc, goal_le' d o⟩]

/-! ## from states to cells -/

theorem mapOf_keeps {a b : Grid2D} (k : Keeps a b) (grid : Int → Int → Nat) (thr : Nat) : b.mapOf grid thr = a.mapOf grid thr := by
  simp only [mapOf, k.W, k.H, k.ds, k.mm, k.den]

theorem within_keeps {a b : Grid2D} (k : Keeps a b) : b.within = a.within := by funext x y; simp only [within, k.W, k.H]
theorem sid_keeps {a b : Grid2D} (k : Keeps a b) : b.sid = a.sid := by funext x y; simp only [sid, k.W]

/-! ## consistency of the heuristic -/

theorem moveLen_ge {k den : Nat} (hd : 0 < den) {dx dy : Int} {len : Nat} (h : moveLen (k * den) den dx dy = some len) :
    k * (max |dx| |dy|).toNat ≤ len := by
  unfold moveLen at h
  have e2 : k * den * 1414 / (den * 1000) = k * 1414 / 1000 := by
    rw [show k * den * 1414 = den * (k * 1414) by ring, Nat.mul_div_mul_left _ _ hd]
  have e3 : k * den * 2236 / (den * 1000) = k * 2236 / 1000 := by
    rw [show k * den * 2236 = den * (k * 2236) by ring, Nat.mul_div_mul_left _ _ hd]
  rw [e2, e3, Nat.mul_div_cancel _ hd] at h
  have a5 := abs_nonneg dx
  have a6 := abs_nonneg dy
  split at h
  next q =>
    have : (max |dx| |dy|).toNat = 1 := by omega
    rw [this]; cases h; omega
  next =>
    split at h
    next q =>
      have : (max |dx| |dy|).toNat = 1 := by omega
      rw [this]; cases h; omega
    next =>
      split at h
      next q =>
        have : (max |dx| |dy|).toNat = 2 := by omega
        rw [this]; cases h; omega
      next => cases h

theorem cheb_triangle (a b c d e f : Int) : max |a - e| |b - f| ≤ max |c - a| |d - b| + max |c - e| |d - f| := by
  have h1 : |a - e| ≤ |c - a| + |c - e| := by
    have := abs_sub_le a c e
    rw [abs_sub_comm a c] at this; exact this
  have h2 : |b - f| ≤ |d - b| + |d - f| := by
    have := abs_sub_le b d f
    rw [abs_sub_comm b d] at this; exact this
  omega

theorem cons_heur {s : Grid2D} {grid : Int → Int → Nat} {thr : Nat} (hd : 0 < s.den) (hm : s.den ∣ s.mm) {j u c : Nat}
    (he : (u, c) ∈ s.edges grid thr j) : s.heur (s.px j) (s.py j) ≤ c + s.heur (s.px u) (s.py u) := by
  unfold edges at he
  obtain ⟨d, hdir, he⟩ := List.mem_filterMap.mp he
  unfold edge? at he
  split at he
  case isFalse => cases he
  next hq =>
  simp only [Option.some.injEq, Prod.mk.injEq] at he
  obtain ⟨e, hc⟩ := he
  have hl := dir_len s d hdir
  obtain ⟨k, hk⟩ := hm
  have hk' : s.mm = k * s.den := by rw [hk, Nat.mul_comm]
  rw [hk'] at hl
  have := moveLen_ge hd hl
  have hu : s.px u = s.px j + d.dx ∧ s.py u = s.py j + d.dy := by rw [← e]; exact ⟨px_sid hq.1, py_sid hq.1⟩
  have hv : ∀ X : Nat, s.mm * X / s.den = k * X := by
    intro X; rw [hk', show k * s.den * X = k * X * s.den by ring, Nat.mul_div_cancel _ hd]
  unfold heur
  rw [hv, hv, hu.1, hu.2]
  have tri := cheb_triangle (s.px j) (s.py j) (s.px j + d.dx) (s.py j + d.dy) s.goal.1 s.goal.2
  rw [show s.px j + d.dx - s.px j = d.dx by omega, show s.py j + d.dy - s.py j = d.dy by omega] at tri
  have n1 : (0 : Int) ≤ max |d.dx| |d.dy| := le_trans (abs_nonneg _) (le_max_left _ _)
  have n2 : (0 : Int) ≤ max |s.px j + d.dx - s.goal.1| |s.py j + d.dy - s.goal.2| := le_trans (abs_nonneg _) (le_max_left _ _)
  have tri' : (max |s.px j - s.goal.1| |s.py j - s.goal.2|).toNat ≤
      (max |d.dx| |d.dy|).toNat + (max |s.px j + d.dx - s.goal.1| |s.py j + d.dy - s.goal.2|).toNat := by omega
  have t2 := Nat.mul_le_mul_left k tri'
  rw [Nat.mul_add] at t2
  have t3 : s.dist d ≤ c := by rw [← hc, Nat.add_mul]; omega
  omega

end Sbpl.Grid2D
