import Verif.Proofs.Polygon
import Mathlib.Data.List.Sublists
/-! # C60: the test whether a point is in the footprint polygon -/

namespace Sbpl.PolyProps
open Fp hiding Pt
open PolySpec Poly

/-- **C60.** `IsInsideFootprint` is exact for every strictly convex polygon (any number of vertices, counterclockwise) and every point: it returns true exactly for the points that are on
the left of every side; of the boundary, exactly the sides that go up or horizontally to the left count as inside. -/
theorem inside_convex_exact {poly : List Pt} (h3 : 3 ≤ poly.length) (hc : Convex poly) (pt : Pt) :
    isInside pt poly = some true ↔ ∀ u v, Edge poly u v → HalfLeft u v pt := by
  obtain ⟨a, b, c, rest, rfl⟩ : ∃ a b c rest, poly = a :: b :: c :: rest := by
    match poly, h3 with
    | a :: b :: c :: rest, _ => exact ⟨a, b, c, rest, rfl⟩
  rw [isInside_par]
  simp only [Option.some.injEq]
  exact inside_convex hc pt

/-- **C60.** ... so every interior point is reported as inside ... -/
theorem interior_inside {poly : List Pt} (h3 : 3 ≤ poly.length) (hc : Convex poly) {pt : Pt} (h : ∀ u v, Edge poly u v → 0 < orient u v pt) : isInside pt poly = some true :=
  (inside_convex_exact h3 hc pt).mpr (fun u v huv => .inl (h u v huv))

/-- **C60.** ... and every point strictly outside as outside. -/
theorem exterior_outside {poly : List Pt} (h3 : 3 ≤ poly.length) (hc : Convex poly) {pt : Pt} {u v : Pt} (he : Edge poly u v) (h : orient u v pt < 0) : isInside pt poly = some false := by
  cases hr : isInside pt poly with
  | none => cases poly with | nil => simp at h3 | cons a l => rw [isInside_par] at hr; cases hr
  | some r =>
    cases r with
    | false => rfl
    | true =>
      rcases (inside_convex_exact h3 hc pt).mp hr u v he with h' | ⟨h', -⟩ <;> linarith

/-- **C60.** The vertices may be given from any starting vertex (for every polygon, convex or not). -/
theorem rotation_invariant (pt : Pt) (l m : List Pt) : isInside pt (l ++ m) = isInside pt (m ++ l) := by
  cases l with
  | nil => simp
  | cons a l =>
    cases m with
    | nil => simp
    | cons b m =>
      rw [List.cons_append, List.cons_append, isInside_par, isInside_par]
      congr 1
      rw [List.append_assoc, List.append_assoc, List.cons_append, List.cons_append, par_append _ l (m ++ [a]), par_append _ m (l ++ [b]), Bool.xor_comm]

theorem par_reverse {cr : Pt → Pt → Bool} (hs : ∀ u v, cr u v = cr v u) : ∀ (l : List Pt) (a b : Pt), par cr a (l ++ [b]) = par cr b (l.reverse ++ [a])
  | [], a, b => by simp [par, hs a b]
  | c :: l, a, b => by
    rw [List.reverse_cons, List.append_assoc, List.cons_append, par, par_reverse hs l c b, List.singleton_append, par_append cr l.reverse [a] b c]
    simp only [par, Bool.xor_false]
    rw [hs c a, Bool.xor_comm]

/-- **C60.** ... and in either order of orientation. -/
theorem reversal_invariant (pt : Pt) (l : List Pt) : isInside pt l.reverse = isInside pt l := by
  cases l with
  | nil => rfl
  | cons a l =>
    rw [List.reverse_cons, rotation_invariant, List.singleton_append, isInside_par, isInside_par, par_reverse (crosses_symm pt) l a a]

/-- **C60.** Moving the point and the polygon together changes nothing. -/
theorem translation_invariant (pt d : Pt) (l : List Pt) : isInside (pt.1 + d.1, pt.2 + d.2) (l.map (fun p => (p.1 + d.1, p.2 + d.2))) = isInside pt l := by
  have hcr : ∀ u v : Pt, crosses (pt.1 + d.1, pt.2 + d.2) (u.1 + d.1, u.2 + d.2) (v.1 + d.1, v.2 + d.2) = crosses pt u v := by
    intro u v
    rw [Bool.eq_iff_iff, crosses_iff, crosses_iff]
    have ho : orient (u.1 + d.1, u.2 + d.2) (v.1 + d.1, v.2 + d.2) (pt.1 + d.1, pt.2 + d.2) = orient u v pt := by unfold orient; ring
    rw [ho]
    simp only [add_lt_add_iff_right, add_le_add_iff_right]
  have hpar : ∀ (l : List Pt) (a : Pt), par (crosses (pt.1 + d.1, pt.2 + d.2)) (a.1 + d.1, a.2 + d.2) (l.map (fun p => (p.1 + d.1, p.2 + d.2))) = par (crosses pt) a l := by
    intro l
    induction l with
    | nil => intro a; rfl
    | cons b l ih => intro a; rw [List.map_cons, par, par, hcr, ih]
  cases l with
  | nil => rfl
  | cons a l =>
    rw [List.map_cons, isInside_par, isInside_par]
    congr 1
    have := hpar (l ++ [a]) a
    rwa [List.map_append] at this

/-- **C60.** A point with all vertices above it, below it or on its left is outside, for every polygon; also a point with all vertices strictly on its right and a closed outline. -/
theorem outside_box {pt : Pt} {l : List Pt} (hne : l ≠ [])
    (h : (∀ p ∈ l, pt.2 < p.2) ∨ (∀ p ∈ l, p.2 < pt.2) ∨ (∀ p ∈ l, p.1 < pt.1) ∨ (∀ p ∈ l, pt.1 < p.1)) : isInside pt l = some false := by
  obtain ⟨a, l, rfl⟩ : ∃ a m, l = a :: m := by cases l with | nil => exact absurd rfl hne | cons a m => exact ⟨a, m, rfl⟩
  rw [isInside_par]
  congr 1
  have none : ∀ {cr : Pt → Pt → Bool} (l : List Pt) (a : Pt), (∀ u v, u ∈ a :: l → v ∈ a :: l → cr u v = false) → par cr a l = false := by
    intro cr l
    induction l with
    | nil => intro a _; rfl
    | cons b l ih =>
      intro a h
      rw [par, h a b (by simp) (by simp), ih b (fun u v hu hv => h u v (List.mem_cons_of_mem _ hu) (List.mem_cons_of_mem _ hv))]
      rfl
  have mem : ∀ u, u ∈ a :: (l ++ [a]) → u ∈ a :: l := by
    intro u hu; simp only [List.mem_cons, List.mem_append, List.not_mem_nil, or_false] at hu ⊢; tauto
  rcases h with h | h | h | h
  · apply none
    intro u v hu hv
    rw [Bool.eq_false_iff, ne_eq, crosses_iff]
    have := h u (mem u hu)
    have := h v (mem v hv)
    rintro (⟨h1, -, -⟩ | ⟨h1, -, -⟩) <;> linarith
  · apply none
    intro u v hu hv
    rw [Bool.eq_false_iff, ne_eq, crosses_iff]
    have := h u (mem u hu)
    have := h v (mem v hv)
    rintro (⟨-, h1, -⟩ | ⟨-, h1, -⟩) <;> linarith
  · apply none
    intro u v hu hv
    have h1 := h u (mem u hu)
    have h2 := h v (mem v hv)
    have : ¬ pt.1 ≤ max u.1 v.1 := by rw [not_le]; exact max_lt h1 h2
    unfold crosses
    simp [this]
  · -- on the left: the crossings are the changes of side of the horizontal line
    have side : ∀ (l : List Pt) (a : Pt), (∀ u ∈ a :: l, pt.1 < u.1) → ∀ b, par (crosses pt) a (l ++ [b]) = true → pt.1 < b.1 → (decide (a.2 < pt.2) = !decide (b.2 < pt.2)) := by
      intro l
      have one : ∀ u v : Pt, pt.1 < u.1 → pt.1 < v.1 → crosses pt u v = xor (decide (u.2 < pt.2)) (decide (v.2 < pt.2)) := by
        intro u v hu hv
        have key : ∀ u v : Pt, pt.1 < u.1 → pt.1 < v.1 → u.2 < pt.2 → pt.2 ≤ v.2 → 0 ≤ orient u v pt := by
          intro u v hu hv h1 h2
          unfold orient
          nlinarith [mul_nonneg (sub_nonneg.mpr hv.le) (sub_nonneg.mpr h1.le), mul_nonneg (sub_nonneg.mpr hu.le) (sub_nonneg.mpr h2)]
        rw [Bool.eq_iff_iff, crosses_iff]
        by_cases h1 : u.2 < pt.2 <;> by_cases h2 : v.2 < pt.2
        · simp only [h1, h2, decide_true, Bool.xor_self, Bool.false_eq_true, iff_false]
          rintro (⟨-, h, -⟩ | ⟨-, h, -⟩) <;> linarith
        · simp only [h1, h2, decide_true, decide_false, Bool.xor_false, iff_true]
          exact .inl ⟨trivial, not_lt.mp h2, key u v hu hv h1 (not_lt.mp h2)⟩
        · simp only [h1, h2, decide_true, decide_false, Bool.false_xor, iff_true]
          refine .inr ⟨trivial, not_lt.mp h1, ?_⟩
          have := key v u hv hu h2 (not_lt.mp h1)
          rw [orient_swap] at this
          linarith
        · simp only [h1, h2, decide_false, Bool.xor_self, Bool.false_eq_true, iff_false]
          rintro (⟨h, -, -⟩ | ⟨h, -, -⟩) <;> exact h
      have tele : ∀ (l : List Pt) (a : Pt), (∀ u ∈ a :: l, pt.1 < u.1) → ∀ b, pt.1 < b.1 → par (crosses pt) a (l ++ [b]) = xor (decide (a.2 < pt.2)) (decide (b.2 < pt.2)) := by
        intro l
        induction l with
        | nil => intro a ha b hb; simp [par, one a b (ha a (by simp)) hb]
        | cons c l ih =>
          intro a ha b hb
          rw [List.cons_append, par, ih c (fun u hu => ha u (List.mem_cons_of_mem _ hu)) b hb, one a c (ha a (by simp)) (ha c (by simp))]
          cases decide (a.2 < pt.2) <;> cases decide (c.2 < pt.2) <;> cases decide (b.2 < pt.2) <;> rfl
      intro a ha b hp hb
      rw [tele l a ha b hb] at hp
      revert hp
      cases decide (a.2 < pt.2) <;> cases decide (b.2 < pt.2) <;> simp
    cases hp : par (crosses pt) a (l ++ [a]) with
    | false => rfl
    | true =>
      have := side l a h a hp (h a (by simp))
      cases hd : decide (a.2 < pt.2) <;> rw [hd] at this <;> cases this

/-- **C60.** Gluing polygons: the test for a polygon is the exclusive or of the tests for the two parts that a diagonal cuts it into. -/
theorem cut_along_diagonal (pt a b : Pt) (l m : List Pt) :
    isInside pt (a :: l ++ b :: m) = some (xor ((isInside pt (a :: l ++ [b])).getD false) ((isInside pt (a :: b :: m)).getD false)) := by
  simp only [List.cons_append]
  rw [isInside_par, isInside_par, isInside_par]
  simp only [Option.getD_some, List.append_assoc, List.cons_append]
  rw [par_append _ l (m ++ [a]), par_append _ l ([] ++ [a])]
  simp only [List.nil_append, par]
  rw [crosses_symm pt b a]
  congr 1
  generalize par (crosses pt) a (l ++ [b]) = z1
  generalize par (crosses pt) b (m ++ [a]) = z2
  generalize crosses pt a b = z3
  cases z1 <;> cases z2 <;> cases z3 <;> rfl

/-- **C60.** A polygon without vertices makes the library raise an exception. -/
theorem empty_raises (pt : Pt) : isInside pt [] = none := rfl

/-! ## A concrete polygon -/

/-- a hexagon -/
def hexagon : List Pt := [(0, 0), (4, -1), (6, 1), (5, 4), (2, 5), (-1, 3)]

theorem hexagon_convex : 3 ≤ hexagon.length ∧ Convex hexagon := by
  refine ⟨by decide, ?_⟩
  intro a b c h
  have hm : [a, b, c] ∈ hexagon.sublists' := List.mem_sublists'.mpr h
  have all : ∀ l ∈ hexagon.sublists', (match l with | [a, b, c] => decide (0 < orient a b c) | _ => true) = true := by decide +kernel
  have := all _ hm
  simpa using this

example : isInside (3, 2) hexagon = some true ∧ isInside (5, 0) hexagon = some true ∧ isInside (6, 3) hexagon = some false ∧ isInside (0, 0) hexagon = some false := by
  refine ⟨?_, ?_, ?_, ?_⟩ <;> decide +kernel

/-- boundary: of a square, the right and the upper side belong to it, the left and the lower one do not -/
example : let sq : List Pt := [(0, 0), (2, 0), (2, 2), (0, 2)]
    isInside (2, 1) sq = some true ∧ isInside (1, 2) sq = some true ∧ isInside (0, 1) sq = some false ∧ isInside (1, 0) sq = some false := by
  refine ⟨?_, ?_, ?_, ?_⟩ <;> decide +kernel

end Sbpl.PolyProps
