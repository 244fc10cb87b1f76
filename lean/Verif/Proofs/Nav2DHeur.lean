import Mathlib.Tactic.Ring
import Mathlib.Tactic.Linarith
import Mathlib.Algebra.Order.Ring.Abs
import Verif.Proofs.Nav2DGeom
/-! # The Euclidean heuristic of `EnvironmentNAV2D` against edge costs -/

namespace Sbpl
open GridSpec Nav2D

/-- `eucl` is the rounded-down distance -/
theorem eucl_sq (p q : Int × Int) :
    ((eucl p q : Int) * eucl p q ≤ 1000000 * ((p.1 - q.1) * (p.1 - q.1) + (p.2 - q.2) * (p.2 - q.2))) ∧
    1000000 * ((p.1 - q.1) * (p.1 - q.1) + (p.2 - q.2) * (p.2 - q.2)) < ((eucl p q : Int) + 1) * (eucl p q + 1) := by
  have hn : 0 ≤ (p.1 - q.1) * (p.1 - q.1) + (p.2 - q.2) * (p.2 - q.2) := by nlinarith [mul_self_nonneg (p.1 - q.1), mul_self_nonneg (p.2 - q.2)]
  generalize hd : (p.1 - q.1) * (p.1 - q.1) + (p.2 - q.2) * (p.2 - q.2) = d at *
  have e : eucl p q = Nat.sqrt (1000000 * d.toNat) := by unfold eucl; rw [hd]
  have hdn : (d.toNat : Int) = d := Int.toNat_of_nonneg hn
  rw [e]
  have h1 := Nat.sqrt_le (1000000 * d.toNat)
  have h3 := Nat.lt_succ_sqrt (1000000 * d.toNat)
  constructor
  · have : ((Nat.sqrt (1000000 * d.toNat) * Nat.sqrt (1000000 * d.toNat) : Nat) : Int) ≤ ((1000000 * d.toNat : Nat) : Int) := by
      exact_mod_cast h1
    push_cast at this
    rw [hdn] at this
    exact this
  · have : ((1000000 * d.toNat : Nat) : Int) < (((Nat.sqrt (1000000 * d.toNat)).succ * (Nat.sqrt (1000000 * d.toNat)).succ : Nat) : Int) := by
      exact_mod_cast h3
    push_cast at this
    rw [hdn] at this
    exact this

/-- triangle inequality in squared form: `k * |w|² ≤ X²`, `k * |d|² ≤ Y²` imply `k * |w - d|² ≤ (X + Y)²` -/
theorem tri {k X Y w1 w2 d1 d2 : Int} (hk : 0 ≤ k) (hX : 0 ≤ X) (hY : 0 ≤ Y) (hw : k * (w1 * w1 + w2 * w2) ≤ X * X)
    (hd : k * (d1 * d1 + d2 * d2) ≤ Y * Y) :
    k * ((w1 - d1) * (w1 - d1) + (w2 - d2) * (w2 - d2)) ≤ (X + Y) * (X + Y) := by
  have cs : (k * (w1 * d1 + w2 * d2)) * (k * (w1 * d1 + w2 * d2)) ≤ (X * Y) * (X * Y) := by
    have h0 : (w1 * d1 + w2 * d2) * (w1 * d1 + w2 * d2) ≤ (w1 * w1 + w2 * w2) * (d1 * d1 + d2 * d2) := by
      nlinarith [mul_self_nonneg (w1 * d2 - w2 * d1)]
    have hd0 : 0 ≤ k * (d1 * d1 + d2 * d2) := by
      apply mul_nonneg hk; nlinarith [mul_self_nonneg d1, mul_self_nonneg d2]
    have h1 : (k * (w1 * w1 + w2 * w2)) * (k * (d1 * d1 + d2 * d2)) ≤ (X * X) * (Y * Y) :=
      mul_le_mul hw hd hd0 (mul_self_nonneg X)
    have h2 := mul_le_mul_of_nonneg_left h0 (mul_nonneg hk hk)
    nlinarith
  have hab : -(k * (w1 * d1 + w2 * d2)) ≤ X * Y := by
    have := abs_le_of_sq_le_sq (a := k * (w1 * d1 + w2 * d2)) (b := X * Y) (by nlinarith) (mul_nonneg hX hY)
    linarith [(abs_le.mp this).1]
  nlinarith

/-- how much the heuristic can drop along an edge -/
theorem eucl_edge {s t g : Int × Int} {R : Int} (hR : 0 ≤ R)
    (hd : 1000000 * ((t.1 - s.1) * (t.1 - s.1) + (t.2 - s.2) * (t.2 - s.2)) ≤ R * R) :
    (eucl s g : Int) ≤ eucl t g + R := by
  have hs := (eucl_sq s g).1
  have ht := (eucl_sq t g).2
  generalize (eucl s g : Int) = A at *
  have hB : 0 ≤ (eucl t g : Int) := Int.natCast_nonneg _
  generalize (eucl t g : Int) = B at *
  by_contra hc
  have hA : B + 1 + R ≤ A := by omega
  have := tri (k := 1000000) (X := B + 1) (Y := R) (w1 := t.1 - g.1) (w2 := t.2 - g.2) (d1 := t.1 - s.1) (d2 := t.2 - s.2)
    (by decide) (by omega) hR (by omega) hd
  have e1 : t.1 - g.1 - (t.1 - s.1) = s.1 - g.1 := by ring
  have e2 : t.2 - g.2 - (t.2 - s.2) = s.2 - g.2 := by ring
  rw [e1, e2] at this
  by_cases hR0 : R = 0
  · -- no move: the inequality is strict
    subst hR0
    have z1 : t.1 - s.1 = 0 := by nlinarith [mul_self_nonneg (t.1 - s.1), mul_self_nonneg (t.2 - s.2)]
    have z2 : t.2 - s.2 = 0 := by nlinarith [mul_self_nonneg (t.1 - s.1), mul_self_nonneg (t.2 - s.2)]
    have q1 : t.1 - g.1 = s.1 - g.1 := by omega
    have q2 : t.2 - g.2 = s.2 - g.2 := by omega
    rw [q1, q2] at ht
    nlinarith
  · -- strictness comes from ht
    have hst : 1000000 * ((t.1 - g.1) * (t.1 - g.1) + (t.2 - g.2) * (t.2 - g.2)) ≤ (B + 1) * (B + 1) - 1 := by omega
    have hab : -(1000000 * ((t.1 - g.1) * (t.1 - s.1) + (t.2 - g.2) * (t.2 - s.2))) ≤ (B + 1) * R := by
      have cs : (1000000 * ((t.1 - g.1) * (t.1 - s.1) + (t.2 - g.2) * (t.2 - s.2))) ^ 2 ≤ ((B + 1) * R) ^ 2 := by
        have h0 : ((t.1 - g.1) * (t.1 - s.1) + (t.2 - g.2) * (t.2 - s.2)) * ((t.1 - g.1) * (t.1 - s.1) + (t.2 - g.2) * (t.2 - s.2)) ≤
            ((t.1 - g.1) * (t.1 - g.1) + (t.2 - g.2) * (t.2 - g.2)) * ((t.1 - s.1) * (t.1 - s.1) + (t.2 - s.2) * (t.2 - s.2)) := by
          nlinarith [mul_self_nonneg ((t.1 - g.1) * (t.2 - s.2) - (t.2 - g.2) * (t.1 - s.1))]
        have hd0 : 0 ≤ 1000000 * ((t.1 - s.1) * (t.1 - s.1) + (t.2 - s.2) * (t.2 - s.2)) := by
          nlinarith [mul_self_nonneg (t.1 - s.1), mul_self_nonneg (t.2 - s.2)]
        have h1 := mul_le_mul (le_of_lt ht) hd hd0 (mul_self_nonneg (B + 1))
        nlinarith
      have := abs_le_of_sq_le_sq cs (mul_nonneg (by omega) hR)
      linarith [(abs_le.mp this).1]
    have ex : 1000000 * ((s.1 - g.1) * (s.1 - g.1) + (s.2 - g.2) * (s.2 - g.2)) =
        1000000 * ((t.1 - g.1) * (t.1 - g.1) + (t.2 - g.2) * (t.2 - g.2)) -
        2 * (1000000 * ((t.1 - g.1) * (t.1 - s.1) + (t.2 - g.2) * (t.2 - s.2))) +
        1000000 * ((t.1 - s.1) * (t.1 - s.1) + (t.2 - s.2) * (t.2 - s.2)) := by ring
    nlinarith

/-- facts about a single edge -/
theorem edge_act {W H : Int} {grid : Int → Int → Nat} {obs : Nat} {is16 : Bool} {p q : Int × Int} {c : Nat}
    (h : Edge W H grid obs is16 p q c) :
    ∃ a ∈ navActs.take (dirsOf is16), a.dx = q.1 - p.1 ∧ a.dy = q.2 - p.2 ∧ ∃ m, m < obs ∧ c = (m + 1) * a.dist := by
  obtain ⟨m, l, hm, hp, hl, rfl⟩ := h
  obtain ⟨a, ha, e1, e2⟩ := act_of_isMove hm
  refine ⟨a, ha, e1, e2, m, hp.2.2, ?_⟩
  rw [← e1, ← e2] at hl
  rw [isLength_unique hl (isLength_dist a (List.mem_of_mem_take ha))]

theorem act_R : ∀ a ∈ navActs, ∃ R ∈ [(1000 : Int), 1415, 2237], 1000000 * (a.dx * a.dx + a.dy * a.dy) ≤ R * R ∧
    R ≤ a.dist + 1 ∧ 1414 * R ≤ 1415 * a.dist ∧ 1414 * 1414 * (a.dx * a.dx + a.dy * a.dy) ≤ 2 * ((a.dist : Int) * a.dist) := by
  decide

/-- a move changes the heuristic by at most ... -/
theorem heur_act {a : Act} (ha' : a ∈ navActs) {s t : Int × Int} (e1 : a.dx = t.1 - s.1) (e2 : a.dy = t.2 - s.2)
    (g : Int × Int) (c : Nat) (hc : a.dist ≤ c) :
    eucl s g ≤ eucl t g + c + 1 ∧ 1414 * eucl s g ≤ 1414 * eucl t g + 1415 * c ∧ 1000 ≤ c := by
  obtain ⟨R, hR, h1, h2, h3, _⟩ := act_R a ha'
  have hR0 : 0 ≤ R := by simp at hR; omega
  have hf := (Act.facts a ha').2.2.1
  have := eucl_edge (s := s) (t := t) (g := g) hR0 (by rw [← e1, ← e2]; exact h1)
  omega

theorem heur_edge {W H : Int} {grid : Int → Int → Nat} {obs : Nat} {is16 : Bool} {s t : Int × Int} {c : Nat}
    (h : Edge W H grid obs is16 s t c) (g : Int × Int) :
    eucl s g ≤ eucl t g + c + 1 ∧ 1414 * eucl s g ≤ 1414 * eucl t g + 1415 * c ∧ 1000 ≤ c := by
  obtain ⟨a, ha, e1, e2, m, _, rfl⟩ := edge_act h
  exact heur_act (List.mem_of_mem_take ha) e1 e2 g _ (Nat.le_mul_of_pos_left _ (by omega))

theorem eucl_comm (p q : Int × Int) : eucl p q = eucl q p := by
  unfold eucl
  congr 3
  ring

/-- cost of a walk against the straight-line distance -/
theorem walk_dist {W H : Int} {grid : Int → Int → Nat} {obs : Nat} {is16 : Bool} {s t : Int × Int} {n : Nat}
    (h : GridWalk W H grid obs is16 s t n) :
    1414 * 1414 * ((s.1 - t.1) * (s.1 - t.1) + (s.2 - t.2) * (s.2 - t.2)) ≤ 2 * ((n : Int) * n) := by
  induction h with
  | nil => simp
  | @snoc b t n c w he ih =>
    obtain ⟨a, ha, e1, e2, m, _, hc⟩ := edge_act he
    obtain ⟨R, _, _, _, _, h4⟩ := act_R a (List.mem_of_mem_take ha)
    have hcd : (a.dist : Int) ≤ c := by
      have : a.dist ≤ c := by rw [hc]; exact Nat.le_mul_of_pos_left _ (by omega)
      exact_mod_cast this
    have hd0 : (0 : Int) ≤ a.dist := Int.natCast_nonneg _
    have h5 : 1414 * 1414 * (a.dx * a.dx + a.dy * a.dy) ≤ 2 * ((c : Int) * c) := by nlinarith
    -- scale by 2: X = 2n, Y = 2c, k = 2 * 1414²
    have := tri (k := 2 * (1414 * 1414)) (X := 2 * n) (Y := 2 * c) (w1 := s.1 - b.1) (w2 := s.2 - b.2) (d1 := a.dx) (d2 := a.dy)
      (by decide) (by omega) (by omega) (by nlinarith) (by nlinarith)
    have q1 : s.1 - b.1 - a.dx = s.1 - t.1 := by omega
    have q2 : s.2 - b.2 - a.dy = s.2 - t.2 := by omega
    rw [q1, q2] at this
    push_cast
    nlinarith

end Sbpl
