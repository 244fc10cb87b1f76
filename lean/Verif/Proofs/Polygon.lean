import Verif.Model.Footprint
import Verif.Spec.Polygon
import Mathlib.Tactic.SplitIfs
import Mathlib.Tactic.Linarith
import Mathlib.Tactic.Ring
/-! # Proofs about `IsInsideFootprint` -/

namespace Sbpl.Poly
open Fp hiding Pt
open PolySpec

/-- parity of the crossings of a path -/
def par (cr : Pt → Pt → Bool) : Pt → List Pt → Bool
  | _, [] => false
  | a, b :: l => xor (cr a b) (par cr b l)

theorem insideLoop_par (pt : Pt) : ∀ (l : List Pt) (a : Pt) (n : Nat), decide (insideLoop pt a l n % 2 ≠ 0) = xor (decide (n % 2 ≠ 0)) (par (crosses pt) a l)
  | [], a, n => by simp [insideLoop, par]
  | b :: l, a, n => by
    rw [insideLoop, insideLoop_par pt l b, par]
    cases h : crosses pt a b
    · simp
    · rcases Nat.mod_two_eq_zero_or_one n with h' | h'
      · have : (n + 1) % 2 = 1 := by omega
        simp [this, h']
      · have : (n + 1) % 2 = 0 := by omega
        simp [this, h']

theorem isInside_par (pt a : Pt) (l : List Pt) : isInside pt (a :: l) = some (par (crosses pt) a (l ++ [a])) := by
  show some (decide (insideLoop pt a (l ++ [a]) 0 % 2 ≠ 0)) = _
  rw [insideLoop_par]; simp

theorem par_append (cr : Pt → Pt → Bool) : ∀ (l m : List Pt) (a b : Pt), par cr a (l ++ b :: m) = xor (par cr a (l ++ [b])) (par cr b m)
  | [], m, a, b => by simp [par]
  | c :: l, m, a, b => by
    simp only [List.cons_append, par]
    rw [par_append cr l m c b]
    cases cr a c <;> simp

theorem par_congr {cr cr' : Pt → Pt → Bool} : ∀ (l : List Pt) (a : Pt), (∀ u v, u ∈ a :: l → v ∈ a :: l → cr u v = cr' u v) → par cr a l = par cr' a l
  | [], _, _ => rfl
  | b :: l, a, h => by
    rw [par, par, h a b (by simp) (by simp), par_congr l b (fun u v hu hv => h u v (by simp [List.mem_cons.mp hu]) (by simp [List.mem_cons.mp hv]))]

theorem crosses_iff (pt p q : Pt) : crosses pt p q = true ↔
    (p.2 < pt.2 ∧ pt.2 ≤ q.2 ∧ 0 ≤ orient p q pt) ∨ (q.2 < pt.2 ∧ pt.2 ≤ p.2 ∧ orient p q pt ≤ 0) := by
  obtain ⟨x, y⟩ := pt
  obtain ⟨px, py⟩ := p
  obtain ⟨qx, qy⟩ := q
  unfold crosses orient
  simp only [Bool.and_eq_true, Bool.or_eq_true, decide_eq_true_iff]
  rcases lt_trichotomy py qy with h | h | h
  · rw [min_eq_left h.le, max_eq_right h.le]
    have hd : (0 : ℚ) < qy - py := by linarith
    have key : x ≤ (y - py) * (qx - px) / (qy - py) + px ↔ 0 ≤ (qx - px) * (y - py) - (qy - py) * (x - px) := by
      rw [← sub_le_iff_le_add, le_div_iff₀ hd]
      constructor <;> intro h <;> nlinarith
    constructor
    · rintro ⟨h1, h2, h3, h4, h5⟩
      left
      refine ⟨h1, h2, ?_⟩
      rcases h5 with h5 | h5
      · subst h5; rw [max_self] at h3; nlinarith
      · exact key.mp h5
    · rintro (⟨h1, h2, h3⟩ | ⟨h1, h2, h3⟩)
      · refine ⟨h1, h2, ?_, ne_of_lt h, .inr (key.mpr h3)⟩
        rcases le_total px qx with hx | hx
        · rw [max_eq_right hx]
          by_contra hc
          have : 0 < (qy - py) * (x - qx) := mul_pos hd (by linarith)
          nlinarith [mul_nonneg (sub_nonneg.mpr hx) (sub_nonneg.mpr h2)]
        · rw [max_eq_left hx]
          by_contra hc
          have : 0 < (qy - py) * (x - px) := mul_pos hd (by linarith)
          nlinarith [mul_nonneg (sub_nonneg.mpr hx) (sub_nonneg.mpr h1.le)]
      · exfalso; linarith
  · subst h
    simp only [ne_eq, not_true_eq_false, false_and, and_false, false_iff]
    rintro (⟨h1, h2, -⟩ | ⟨h1, h2, -⟩) <;> linarith
  · rw [min_eq_right h.le, max_eq_left h.le]
    have hd : qy - py < 0 := by linarith
    have key : x ≤ (y - py) * (qx - px) / (qy - py) + px ↔ (qx - px) * (y - py) - (qy - py) * (x - px) ≤ 0 := by
      rw [← sub_le_iff_le_add, le_div_iff_of_neg hd]
      constructor <;> intro h <;> nlinarith
    constructor
    · rintro ⟨h1, h2, h3, h4, h5⟩
      right
      refine ⟨h1, h2, ?_⟩
      rcases h5 with h5 | h5
      · subst h5; rw [max_self] at h3; nlinarith
      · exact key.mp h5
    · rintro (⟨h1, h2, h3⟩ | ⟨h1, h2, h3⟩)
      · exfalso; linarith
      · refine ⟨h1, h2, ?_, ne_of_gt h, .inr (key.mpr h3)⟩
        rcases le_total px qx with hx | hx
        · rw [max_eq_right hx]
          by_contra hc
          have : 0 < (py - qy) * (x - qx) := mul_pos (by linarith) (by linarith)
          nlinarith [mul_nonneg (sub_nonneg.mpr hx) (sub_nonneg.mpr h1.le)]
        · rw [max_eq_left hx]
          by_contra hc
          have : 0 < (py - qy) * (x - px) := mul_pos (by linarith) (by linarith)
          nlinarith [mul_nonneg (sub_nonneg.mpr hx) (sub_nonneg.mpr h2)]

theorem orient_swap (p q r : Pt) : orient q p r = - orient p q r := by unfold orient; ring
theorem orient_rot (p q r : Pt) : orient q r p = orient p q r := by unfold orient; ring

theorem crosses_symm (pt p q : Pt) : crosses pt p q = crosses pt q p := by
  rw [Bool.eq_iff_iff, crosses_iff, crosses_iff, orient_swap q p pt]
  constructor
  · rintro (⟨a, b, c⟩ | ⟨a, b, c⟩)
    · exact .inr ⟨a, b, by linarith⟩
    · exact .inl ⟨a, b, by linarith⟩
  · rintro (⟨a, b, c⟩ | ⟨a, b, c⟩)
    · exact .inr ⟨a, b, by linarith⟩
    · exact .inl ⟨a, b, by linarith⟩

/-! ## Perturbation -/

/-- for all sufficiently small positive numbers -/
def Ev (P : ℚ → Prop) : Prop := ∃ e0 : ℚ, 0 < e0 ∧ ∀ e, 0 < e → e < e0 → P e

theorem Ev.and {P Q : ℚ → Prop} (h : Ev P) (k : Ev Q) : Ev (fun e => P e ∧ Q e) := by
  obtain ⟨a, a0, ha⟩ := h
  obtain ⟨b, b0, hb⟩ := k
  exact ⟨min a b, lt_min a0 b0, fun e e0 e1 => ⟨ha e e0 (lt_of_lt_of_le e1 (min_le_left _ _)), hb e e0 (lt_of_lt_of_le e1 (min_le_right _ _))⟩⟩

theorem Ev.mono {P Q : ℚ → Prop} (h : Ev P) (k : ∀ e, 0 < e → P e → Q e) : Ev Q := by
  obtain ⟨a, a0, ha⟩ := h
  exact ⟨a, a0, fun e e0 e1 => k e e0 (ha e e0 e1)⟩

theorem Ev.forall {α : Type} {P : α → ℚ → Prop} : ∀ {l : List α}, (∀ a ∈ l, Ev (P a)) → Ev (fun e => ∀ a ∈ l, P a e)
  | [], _ => ⟨1, one_pos, by simp⟩
  | a :: l, h => ((h a (by simp)).and (Ev.forall (l := l) (fun b hb => h b (by simp [hb])))).mono
      (fun e _ he b hb => by rcases List.mem_cons.mp hb with rfl | hb; exact he.1; exact he.2 b hb)

theorem ev_const {P : Prop} (h : P) : Ev (fun _ => P) := ⟨1, one_pos, fun _ _ _ => h⟩

theorem ev_pos {o A B : ℚ} (h : 0 < o ∨ (o = 0 ∧ (0 < A ∨ (A = 0 ∧ 0 < B)))) : Ev (fun e => 0 < o + e * A + e * e * B) := by
  rcases h with h | ⟨rfl, h | ⟨rfl, h⟩⟩
  · have hs : 0 < |A| + |B| + 1 := by have := abs_nonneg A; have := abs_nonneg B; linarith
    refine ⟨min 1 (o / (|A| + |B| + 1)), lt_min one_pos (div_pos h hs), fun e e0 e1 => ?_⟩
    have e2 : e < 1 := lt_of_lt_of_le e1 (min_le_left _ _)
    have e3 := (lt_div_iff₀ hs).mp (lt_of_lt_of_le e1 (min_le_right _ _))
    have a1 : -(e * |A|) ≤ e * A := by nlinarith [neg_abs_le A]
    have a2 : -(e * |B|) ≤ e * e * B := by
      have : -(e * e * |B|) ≤ e * e * B := by nlinarith [neg_abs_le B, mul_pos e0 e0]
      have : e * e * |B| ≤ e * |B| := by nlinarith [mul_nonneg (mul_nonneg e0.le (sub_nonneg.mpr e2.le)) (abs_nonneg B)]
      linarith
    nlinarith
  · have hs : 0 < |B| + 1 := by have := abs_nonneg B; linarith
    refine ⟨A / (|B| + 1), div_pos h hs, fun e e0 e1 => ?_⟩
    have e3 := (lt_div_iff₀ hs).mp e1
    have : 0 < A + e * B := by nlinarith [neg_abs_le B]
    have : 0 < e * (A + e * B) := mul_pos e0 this
    linarith
  · refine ⟨1, one_pos, fun e e0 _ => ?_⟩
    have := mul_pos (mul_pos e0 e0) h
    linarith

/-- the perturbed point -/
def near (pt : Pt) (e : ℚ) : Pt := (pt.1 - e, pt.2 - e * e)

theorem orient_near (u v pt : Pt) (e : ℚ) : orient u v (near pt e) = orient u v pt + e * (v.2 - u.2) + e * e * (u.1 - v.1) := by
  unfold orient near; ring

theorem halfLeft_or {u v : Pt} (h : u ≠ v) (pt : Pt) : (HalfLeft u v pt ∧ ¬ HalfLeft v u pt) ∨ (HalfLeft v u pt ∧ ¬ HalfLeft u v pt) := by
  unfold HalfLeft
  rw [orient_swap u v pt]
  have hne : u.1 ≠ v.1 ∨ u.2 ≠ v.2 := by
    by_contra hc; push Not at hc; exact h (Prod.ext hc.1 hc.2)
  rcases lt_trichotomy (orient u v pt) 0 with h1 | h1 | h1
  · right
    refine ⟨.inl (by linarith), ?_⟩
    rintro (h2 | ⟨h2, -⟩) <;> linarith
  · rw [h1]
    rcases lt_trichotomy u.2 v.2 with h2 | h2 | h2
    · left; exact ⟨.inr ⟨rfl, .inl h2⟩, by rintro (h3 | ⟨-, h3 | ⟨h3, -⟩⟩) <;> linarith⟩
    · rcases lt_trichotomy u.1 v.1 with h3 | h3 | h3
      · right; exact ⟨.inr ⟨by simp, .inr ⟨h2.symm, h3⟩⟩, by rintro (h4 | ⟨-, h4 | ⟨-, h4⟩⟩) <;> linarith⟩
      · rcases hne with hne | hne
        · exact absurd h3 hne
        · exact absurd h2 hne
      · left; exact ⟨.inr ⟨rfl, .inr ⟨h2, h3⟩⟩, by rintro (h4 | ⟨-, h4 | ⟨-, h4⟩⟩) <;> linarith⟩
    · right; exact ⟨.inr ⟨by simp, .inl h2⟩, by rintro (h3 | ⟨-, h3 | ⟨h3, -⟩⟩) <;> linarith⟩
  · left
    refine ⟨.inl h1, ?_⟩
    rintro (h2 | ⟨h2, -⟩) <;> linarith

theorem ev_halfLeft {u v : Pt} {pt : Pt} (h : HalfLeft u v pt) : Ev (fun e => 0 < orient u v (near pt e)) := by
  refine (ev_pos (o := orient u v pt) (A := v.2 - u.2) (B := u.1 - v.1) ?_).mono (fun e _ he => by rw [orient_near]; exact he)
  rcases h with h | ⟨h, h' | ⟨h', h''⟩⟩
  · exact .inl h
  · exact .inr ⟨h, .inl (by linarith)⟩
  · exact .inr ⟨h, .inr ⟨by linarith, by linarith⟩⟩

/-- a point in general position with respect to the vertices, for which the test has the same result -/
structure Generic (L : List Pt) (pt p : Pt) : Prop where
  y : ∀ u ∈ L, (u.2 < pt.2 → u.2 < p.2) ∧ (pt.2 ≤ u.2 → p.2 < u.2)
  o : ∀ u ∈ L, ∀ v ∈ L, u ≠ v → (HalfLeft u v pt → 0 < orient u v p) ∧ (¬ HalfLeft u v pt → orient u v p < 0)

theorem generic_exists (L : List Pt) (pt : Pt) : ∃ p, Generic L pt p := by
  have h1 : Ev (fun e => ∀ u ∈ L, (u.2 < pt.2 → u.2 < (near pt e).2) ∧ (pt.2 ≤ u.2 → (near pt e).2 < u.2)) := by
    refine Ev.forall (fun u _ => ?_)
    by_cases h : u.2 < pt.2
    · refine (ev_pos (o := pt.2 - u.2) (A := 0) (B := -1) (.inl (by linarith))).mono (fun e _ he => ?_)
      unfold near; dsimp only
      exact ⟨fun _ => by linarith, fun h' => absurd h (not_lt.mpr h')⟩
    · refine ⟨1, one_pos, fun e e0 _ => ⟨fun h' => absurd h' h, fun h' => ?_⟩⟩
      unfold near; dsimp only
      have := mul_pos e0 e0
      linarith
  have h2 : Ev (fun e => ∀ u ∈ L, ∀ v ∈ L, u ≠ v → (HalfLeft u v pt → 0 < orient u v (near pt e)) ∧ (¬ HalfLeft u v pt → orient u v (near pt e) < 0)) := by
    refine Ev.forall (fun u _ => Ev.forall (fun v _ => ?_))
    by_cases huv : u = v
    · exact ⟨1, one_pos, fun _ _ _ h => absurd huv h⟩
    rcases halfLeft_or huv pt with ⟨a, -⟩ | ⟨a, b⟩
    · exact (ev_halfLeft a).mono (fun e _ he _ => ⟨fun _ => he, fun h => absurd a h⟩)
    · refine (ev_halfLeft a).mono (fun e _ he _ => ⟨fun h => absurd h b, fun _ => ?_⟩)
      rw [orient_swap u v] at he; linarith
  obtain ⟨e0, h0, h⟩ := h1.and h2
  obtain ⟨a, b⟩ := h (e0 / 2) (by linarith) (by linarith)
  exact ⟨_, a, b⟩

/-- crossing for points in general position -/
def cr (p u v : Pt) : Bool := (decide (u.2 < p.2) && decide (p.2 < v.2) && decide (0 < orient u v p)) || (decide (v.2 < p.2) && decide (p.2 < u.2) && decide (orient u v p < 0))

theorem cr_eq {L : List Pt} {pt p u v : Pt} (g : Generic L pt p) (hu : u ∈ L) (hv : v ∈ L) : crosses pt u v = cr p u v := by
  rw [Bool.eq_iff_iff, crosses_iff]
  unfold cr
  simp only [Bool.or_eq_true, Bool.and_eq_true, decide_eq_true_iff]
  obtain ⟨yu1, yu2⟩ := g.y u hu
  obtain ⟨yv1, yv2⟩ := g.y v hv
  have du : u.2 < pt.2 ↔ u.2 < p.2 := ⟨yu1, fun h => by by_contra hc; exact absurd (yu2 (not_lt.mp hc)) (not_lt.mpr h.le)⟩
  have dv : v.2 < pt.2 ↔ v.2 < p.2 := ⟨yv1, fun h => by by_contra hc; exact absurd (yv2 (not_lt.mp hc)) (not_lt.mpr h.le)⟩
  have eu : pt.2 ≤ u.2 ↔ p.2 < u.2 := ⟨yu2, fun h => by by_contra hc; exact absurd (yu1 (not_le.mp hc)) (not_lt.mpr h.le)⟩
  have ev : pt.2 ≤ v.2 ↔ p.2 < v.2 := ⟨yv2, fun h => by by_contra hc; exact absurd (yv1 (not_le.mp hc)) (not_lt.mpr h.le)⟩
  rw [du, dv, eu, ev]
  by_cases huv : u = v
  · subst huv
    constructor
    · rintro (⟨a, b, -⟩ | ⟨a, b, -⟩) <;> exact absurd a (not_lt.mpr b.le)
    · rintro (⟨⟨a, b⟩, -⟩ | ⟨⟨a, b⟩, -⟩) <;> exact absurd a (not_lt.mpr b.le)
  obtain ⟨o1, o2⟩ := g.o u hu v hv huv
  constructor
  · rintro (⟨a, b, c⟩ | ⟨a, b, c⟩)
    · refine .inl ⟨⟨a, b⟩, o1 ?_⟩
      rcases c.lt_or_eq with c | c
      · exact .inl c
      · exact .inr ⟨c.symm, .inl (lt_trans a b)⟩
    · refine .inr ⟨⟨a, b⟩, o2 ?_⟩
      rintro (h | ⟨-, h | ⟨h, -⟩⟩)
      · linarith
      · exact absurd (lt_trans a b) (not_lt.mpr h.le)
      · exact absurd (lt_trans a b) (by rw [h]; exact lt_irrefl _)
  · rintro (⟨⟨a, b⟩, c⟩ | ⟨⟨a, b⟩, c⟩)
    · refine .inl ⟨a, b, ?_⟩
      by_contra hc
      have := o2 (by rintro (h | ⟨h, -⟩) <;> linarith)
      linarith
    · refine .inr ⟨a, b, ?_⟩
      by_contra hc
      have := o1 (.inl (by linarith))
      linarith

/-! ## Convex polygons and points in general position -/

theorem triangle_identity (a b c u v p : Pt) : orient u v p * orient a b c = orient b c p * orient u v a + orient c a p * orient u v b + orient a b p * orient u v c := by
  unfold orient; ring

theorem triangle_par {a b c p : Pt} (h : 0 < orient a b c) (ha : a.2 ≠ p.2) (hb : b.2 ≠ p.2) (hc : c.2 ≠ p.2) (h1 : orient a b p ≠ 0) (h2 : orient b c p ≠ 0) (h3 : orient c a p ≠ 0) :
    par (cr p) a [b, c, a] = true ↔ 0 < orient a b p ∧ 0 < orient b c p ∧ 0 < orient c a p := by
  have id1 : orient b c p * (a.2 - p.2) + orient c a p * (b.2 - p.2) + orient a b p * (c.2 - p.2) = 0 := by unfold orient; ring
  have id2 : orient a b p + orient b c p + orient c a p = orient a b c := by unfold orient; ring
  simp only [par, cr]
  generalize orient a b p = o1 at *
  generalize orient b c p = o2 at *
  generalize orient c a p = o3 at *
  generalize orient a b c = D at *
  rcases lt_or_gt_of_ne ha with ha | ha <;> rcases lt_or_gt_of_ne hb with hb | hb <;> rcases lt_or_gt_of_ne hc with hc | hc <;>
  rcases lt_or_gt_of_ne h1 with h1 | h1 <;> rcases lt_or_gt_of_ne h2 with h2 | h2 <;> rcases lt_or_gt_of_ne h3 with h3 | h3 <;>
  simp only [ha, hb, hc, h1, h2, h3, not_lt.mpr ha.le, not_lt.mpr hb.le, not_lt.mpr hc.le, not_lt.mpr h1.le, not_lt.mpr h2.le, not_lt.mpr h3.le, decide_true, decide_false, Bool.and_true, Bool.and_false,
    Bool.or_true, Bool.or_false, Bool.xor_false, Bool.xor_true, Bool.not_true, Bool.not_false, and_true, and_false, false_and, true_and, Bool.false_eq_true, iff_true, iff_false, not_true_eq_false, not_false_eq_true, reduceCtorEq] <;>
  first
  | done
  | (exfalso; linarith)
  | (exfalso
     have q1 := mul_pos (abs_pos.mpr (ne_of_gt h2 : o2 ≠ 0)) (abs_pos.mpr (sub_ne_zero.mpr (ne_of_gt ha)))
     nlinarith)
  | (exfalso; nlinarith)

/-- strictly to the left of every side of a path -/
def LeftOf (p : Pt) : Pt → List Pt → Prop
  | _, [] => True
  | a, b :: l => 0 < orient a b p ∧ LeftOf p b l

theorem leftOf_append {p : Pt} : ∀ {l m : List Pt} {a b : Pt}, LeftOf p a (l ++ b :: m) ↔ LeftOf p a (l ++ [b]) ∧ LeftOf p b m
  | [], m, a, b => by simp [LeftOf]
  | c :: l, m, a, b => by
    simp only [List.cons_append, LeftOf]
    rw [leftOf_append (l := l)]
    exact and_assoc.symm

theorem orient_self1 (a b : Pt) : orient a b a = 0 := by unfold orient; ring
theorem orient_self2 (a b : Pt) : orient a b b = 0 := by unfold orient; ring

/-- everything in a triangle is on the same side of a line as its corners -/
theorem triangle_contained {a b c u v p : Pt} (h : 0 < orient a b c) (h1 : 0 < orient a b p) (h2 : 0 < orient b c p) (h3 : 0 < orient c a p)
    (ua : 0 ≤ orient u v a) (ub : 0 ≤ orient u v b) (uc : 0 ≤ orient u v c) (hne : u ≠ v) : 0 < orient u v p := by
  have id := triangle_identity a b c u v p
  have n1 := mul_nonneg h2.le ua
  have n2 := mul_nonneg h3.le ub
  have n3 := mul_nonneg h1.le uc
  have ge : 0 ≤ orient u v p * orient a b c := by rw [id]; linarith
  have ge' : 0 ≤ orient u v p := by
    by_contra hc
    have := mul_neg_of_neg_of_pos (not_le.mp hc) h
    linarith
  rcases ge'.lt_or_eq with h' | h'
  · exact h'
  exfalso
  rw [← h', zero_mul] at id
  have z1 : orient b c p * orient u v a = 0 := by linarith
  have z2 : orient c a p * orient u v b = 0 := by linarith
  have z3 : orient a b p * orient u v c = 0 := by linarith
  have y1 := (mul_eq_zero.mp z1).resolve_left h2.ne'
  have y2 := (mul_eq_zero.mp z2).resolve_left h3.ne'
  have y3 := (mul_eq_zero.mp z3).resolve_left h1.ne'
  have all : ∀ q, orient u v q = 0 := by
    intro q
    have := triangle_identity a b c u v q
    rw [y1, y2, y3] at this
    simp only [mul_zero, add_zero] at this
    exact (mul_eq_zero.mp this).resolve_right h.ne'
  apply hne
  have e1 := all (u.1 + 1, u.2)
  have e2 := all (u.1, u.2 + 1)
  unfold orient at e1 e2
  dsimp only at e1 e2
  exact Prod.ext (by linarith) (by linarith)

/-- in general position with respect to the vertices -/
structure Gen (L : List Pt) (p : Pt) : Prop where
  y : ∀ u ∈ L, u.2 ≠ p.2
  o : ∀ u ∈ L, ∀ v ∈ L, u ≠ v → orient u v p ≠ 0

theorem Gen.sub {L M : List Pt} {p : Pt} (g : Gen L p) (h : ∀ u ∈ M, u ∈ L) : Gen M p :=
  ⟨fun u hu => g.y u (h u hu), fun u hu v hv => g.o u (h u hu) v (h v hv)⟩

theorem ne_of_orient1 {a b c : Pt} (h : 0 < orient a b c) : a ≠ b := by
  rintro rfl; unfold orient at h; simp at h
theorem ne_of_orient2 {a b c : Pt} (h : 0 < orient a b c) : b ≠ c := by
  rintro rfl; rw [orient_self2] at h; exact absurd h (lt_irrefl _)
theorem ne_of_orient3 {a b c : Pt} (h : 0 < orient a b c) : a ≠ c := by
  rintro rfl; rw [orient_self1] at h; exact absurd h (lt_irrefl _)

theorem polygon_contained {p : Pt} : ∀ (rest : List Pt) {a b c u v : Pt}, Convex (a :: b :: c :: rest) → Gen (a :: b :: c :: rest) p →
    LeftOf p a (b :: c :: rest ++ [a]) → (∀ w ∈ a :: b :: c :: rest, 0 ≤ orient u v w) → u ≠ v → 0 < orient u v p
  | [], a, b, c, u, v, hc, g, hl, hw, hne => by
    simp only [List.cons_append, List.nil_append, LeftOf] at hl
    exact triangle_contained (hc a b c (List.Sublist.refl _)) hl.1 hl.2.1 hl.2.2.1 (hw a (by simp)) (hw b (by simp)) (hw c (by simp)) hne
  | d :: rest, a, b, c, u, v, hc, g, hl, hw, hne => by
    have tabc : 0 < orient a b c := hc a b c (by simp)
    have hac : a ≠ c := ne_of_orient3 tabc
    rcases lt_or_gt_of_ne (g.o a (by simp) c (by simp) hac) with h | h
    · have : 0 < orient c a p := by rw [orient_swap]; linarith
      simp only [List.cons_append, LeftOf] at hl
      exact triangle_contained tabc hl.1 hl.2.1 this (hw a (by simp)) (hw b (by simp)) (hw c (by simp)) hne
    · refine polygon_contained rest (a := a) (b := c) (c := d) (u := u) (v := v) ?_ (g.sub ?_) ?_ ?_ hne
      · intro x y z hs
        exact hc x y z (hs.trans (List.Sublist.cons_cons _ (List.Sublist.cons _ (List.Sublist.refl _))))
      · intro w hw'; simp only [List.mem_cons] at hw' ⊢; tauto
      · simp only [List.cons_append, LeftOf] at hl ⊢
        exact ⟨h, hl.2.2⟩
      · intro w hw'; apply hw; simp only [List.mem_cons] at hw' ⊢; tauto

theorem leftOf_of {p : Pt} : ∀ (l : List Pt) (a : Pt), (∀ u v, (u, v) ∈ (a :: l).zip l → 0 < orient u v p) → LeftOf p a l
  | [], _, _ => trivial
  | b :: l, a, h => ⟨h a b (by simp), leftOf_of l b (fun u v huv => h u v (by rw [List.zip_cons_cons]; exact List.mem_cons_of_mem _ huv))⟩

theorem leftOf_iff {p : Pt} : ∀ (l : List Pt) (a : Pt), LeftOf p a l ↔ ∀ u v, (u, v) ∈ (a :: l).zip l → 0 < orient u v p
  | [], _ => by simp [LeftOf]
  | b :: l, a => by
    rw [LeftOf, leftOf_iff l b]
    constructor
    · rintro ⟨h1, h2⟩ u v huv
      rw [List.zip_cons_cons, List.mem_cons] at huv
      rcases huv with h | h
      · simp only [Prod.mk.injEq] at h; rw [h.1, h.2]; exact h1
      · exact h2 u v h
    · intro h
      exact ⟨h a b (by simp), fun u v huv => h u v (by rw [List.zip_cons_cons]; exact List.mem_cons_of_mem _ huv)⟩

/-- consecutive elements of a path form a sublist, or the second is the end -/
theorem zip_sublist {u v a : Pt} : ∀ (l : List Pt) (c : Pt), (u, v) ∈ (c :: l ++ [a]).zip (l ++ [a]) → [u, v].Sublist (c :: l) ∨ (u ∈ c :: l ∧ v = a)
  | [], c, h => by
    simp at h
    exact .inr ⟨by simp [h.1], h.2⟩
  | d :: l, c, h => by
    simp only [List.cons_append, List.zip_cons_cons, List.mem_cons, Prod.mk.injEq] at h
    rcases h with ⟨rfl, rfl⟩ | h
    · left; simp
    · rcases zip_sublist l d h with h' | ⟨h1, h2⟩
      · left; exact h'.cons _
      · right; exact ⟨List.mem_cons_of_mem _ h1, h2⟩

theorem par_polygon {p : Pt} : ∀ (rest : List Pt) {a b c : Pt}, Convex (a :: b :: c :: rest) → Gen (a :: b :: c :: rest) p →
    (par (cr p) a (b :: c :: rest ++ [a]) = true ↔ LeftOf p a (b :: c :: rest ++ [a]))
  | [], a, b, c, hc, g => by
    have t : 0 < orient a b c := hc a b c (List.Sublist.refl _)
    simp only [List.cons_append, List.nil_append, LeftOf, and_true]
    refine triangle_par t (g.y a (by simp)) (g.y b (by simp)) (g.y c (by simp)) (g.o a (by simp) b (by simp) (ne_of_orient1 t)) (g.o b (by simp) c (by simp) (ne_of_orient2 t))
      (g.o c (by simp) a (by simp) (ne_of_orient3 t).symm)
  | d :: rest, a, b, c, hc, g => by
    have t : 0 < orient a b c := hc a b c (by simp)
    have hac : a ≠ c := ne_of_orient3 t
    have hcR : Convex (a :: c :: d :: rest) := by
      intro x y z hs
      exact hc x y z (hs.trans (List.Sublist.cons_cons _ (List.Sublist.cons _ (List.Sublist.refl _))))
    have gR : Gen (a :: c :: d :: rest) p := g.sub (by intro w hw'; simp only [List.mem_cons] at hw' ⊢; tauto)
    have T := triangle_par t (g.y a (by simp)) (g.y b (by simp)) (g.y c (by simp)) (g.o a (by simp) b (by simp) (ne_of_orient1 t)) (g.o b (by simp) c (by simp) (ne_of_orient2 t))
      (g.o c (by simp) a (by simp) hac.symm)
    have R := par_polygon rest hcR gR
    have symm : cr p c a = cr p a c := by
      unfold cr
      rw [orient_swap a c, Bool.or_comm]
      simp
    have fan : par (cr p) a (b :: c :: d :: rest ++ [a]) = xor (par (cr p) a [b, c, a]) (par (cr p) a (c :: d :: rest ++ [a])) := by
      simp only [List.cons_append, par, symm]
      generalize cr p a b = z1
      generalize cr p b c = z2
      generalize cr p a c = z3
      generalize cr p c d = z4
      generalize par (cr p) d (rest ++ [a]) = z5
      cases z1 <;> cases z2 <;> cases z3 <;> cases z4 <;> cases z5 <;> rfl
    rw [fan]
    rcases lt_or_gt_of_ne (g.o a (by simp) c (by simp) hac) with h | h
    · have hca : 0 < orient c a p := by rw [orient_swap]; linarith
      have rF : par (cr p) a (c :: d :: rest ++ [a]) = false := by
        rw [Bool.eq_false_iff]; intro hh
        have := R.mp hh
        simp only [List.cons_append, LeftOf] at this
        linarith [this.1]
      rw [rF, Bool.xor_false, T]
      constructor
      · rintro ⟨h1, h2, -⟩
        refine ⟨h1, h2, ?_⟩
        refine leftOf_of _ _ ?_
        intro u v huv
        have hb : 0 < orient u v b ∧ 0 ≤ orient u v a ∧ 0 ≤ orient u v c := by
          rcases zip_sublist (d :: rest) c huv with hs | ⟨hu, rfl⟩
          · have hb : 0 < orient b u v := hc b u v ((List.Sublist.cons_cons b hs).cons a)
            have ha : 0 < orient a u v := hc a u v (List.Sublist.cons_cons a (hs.cons b))
            refine ⟨by rw [orient_rot]; exact hb, by rw [orient_rot]; exact ha.le, ?_⟩
            by_cases huc : u = c
            · subst huc; rw [orient_self1]
            · have hs' : [u, v].Sublist (d :: rest) := by
                cases hs with
                | cons _ h => exact h
                | cons_cons _ h => exact absurd rfl huc
              have : 0 < orient c u v := hc c u v (((List.Sublist.cons_cons c hs').cons b).cons a)
              rw [orient_rot]; exact this.le
          · have hb : 0 < orient v b u := hc v b u (List.Sublist.cons_cons v (List.Sublist.cons_cons b (List.singleton_sublist.mpr hu)))
            refine ⟨by rw [← orient_rot u v b] at *; rw [show orient v b u = orient u v b from orient_rot u v b] at hb; exact (orient_rot u v b) ▸ hb, by rw [orient_self2], ?_⟩
            by_cases huc : u = c
            · subst huc; rw [orient_self1]
            · have hu' : u ∈ d :: rest := (List.mem_cons.mp hu).resolve_left huc
              have : 0 < orient v c u := hc v c u (List.Sublist.cons_cons v ((List.Sublist.cons_cons c (List.singleton_sublist.mpr hu')).cons b))
              rw [orient_rot u v c] at this
              exact this.le
        have huv' : u ≠ v := ne_of_orient1 hb.1
        exact triangle_contained t h1 h2 hca hb.2.1 hb.1.le hb.2.2 huv'
      · intro hl
        simp only [List.cons_append, LeftOf] at hl
        exact ⟨hl.1, hl.2.1, hca⟩
    · have tF : par (cr p) a [b, c, a] = false := by
        rw [Bool.eq_false_iff]; intro hh
        have := (T.mp hh).2.2
        rw [orient_swap] at this
        linarith
      rw [tF, Bool.false_xor, R]
      constructor
      · intro hl
        have hw1 : ∀ w ∈ a :: c :: d :: rest, 0 ≤ orient a b w := by
          intro w hw
          rcases List.mem_cons.mp hw with rfl | hw
          · rw [orient_self1]
          · exact (hc a b w (List.Sublist.cons_cons a (List.Sublist.cons_cons b (List.singleton_sublist.mpr hw)))).le
        have hw2 : ∀ w ∈ a :: c :: d :: rest, 0 ≤ orient b c w := by
          intro w hw
          rcases List.mem_cons.mp hw with rfl | hw
          · rw [orient_rot]; exact t.le
          · rcases List.mem_cons.mp hw with rfl | hw
            · rw [orient_self2]
            · exact (hc b c w ((List.Sublist.cons_cons b (List.Sublist.cons_cons c (List.singleton_sublist.mpr hw))).cons a)).le
        have k1 := polygon_contained rest hcR gR hl hw1 (ne_of_orient1 t)
        have k2 := polygon_contained rest hcR gR hl hw2 (ne_of_orient2 t)
        simp only [List.cons_append, LeftOf] at hl ⊢
        exact ⟨k1, k2, hl.2⟩
      · intro hl
        simp only [List.cons_append, LeftOf] at hl ⊢
        exact ⟨h, hl.2.2⟩

theorem Generic.gen {L : List Pt} {pt p : Pt} (g : Generic L pt p) : Gen L p := by
  constructor
  · intro u hu
    obtain ⟨h1, h2⟩ := g.y u hu
    by_cases h : u.2 < pt.2
    · exact (h1 h).ne
    · exact (h2 (not_lt.mp h)).ne'
  · intro u hu v hv huv
    obtain ⟨h1, h2⟩ := g.o u hu v hv huv
    by_cases h : HalfLeft u v pt
    · exact (h1 h).ne'
    · exact (h2 h).ne

/-- the closed list of vertices of a polygon -/
theorem edge_cons {a : Pt} {l : List Pt} {u v : Pt} : Edge (a :: l) u v ↔ (u, v) ∈ (a :: (l ++ [a])).zip (l ++ [a]) := by
  unfold Edge; simp

theorem edge_distinct {a b c : Pt} {rest : List Pt} (hc : Convex (a :: b :: c :: rest)) {u v : Pt} (h : Edge (a :: b :: c :: rest) u v) :
    u ∈ a :: b :: c :: rest ∧ v ∈ a :: b :: c :: rest ∧ u ≠ v := by
  have t : 0 < orient a b c := hc a b c (by simp)
  rw [edge_cons] at h
  rcases zip_sublist (b :: c :: rest) a h with hs | ⟨hu, rfl⟩
  · refine ⟨hs.subset (by simp), hs.subset (by simp), ?_⟩
    rintro rfl
    by_cases hua : u = a
    · subst hua
      have hm : u ∈ b :: c :: rest := by
        cases hs with
        | cons _ h => exact h.subset (by simp)
        | cons_cons _ h => exact h.subset (by simp)
      rcases List.mem_cons.mp hm with h | h
      · exact ne_of_orient1 t h
      · exact ne_of_orient3 (hc u b u (List.Sublist.cons_cons u (List.Sublist.cons_cons b (List.singleton_sublist.mpr h)))) rfl
    · have hs' : [u, u].Sublist (b :: c :: rest) := by
        cases hs with
        | cons _ h => exact h
        | cons_cons _ h => exact absurd rfl hua
      exact ne_of_orient2 (hc a u u (List.Sublist.cons_cons a hs')) rfl
  · refine ⟨hu, by simp, ?_⟩
    rintro rfl
    -- the last vertex is the first one
    have hlast : (u, u) ∈ (u :: (b :: c :: rest ++ [u])).zip (b :: c :: rest ++ [u]) := h
    simp only [List.cons_append, List.zip_cons_cons, List.mem_cons, Prod.mk.injEq] at hlast
    rcases hlast with ⟨-, h1⟩ | ⟨h1, -⟩ | h1
    · exact ne_of_orient1 t h1
    · exact ne_of_orient1 t h1
    · have hm : u ∈ c :: rest := by
        rcases zip_sublist rest c h1 with h | ⟨h, -⟩
        · exact h.subset (by simp)
        · exact h
      exact ne_of_orient3 (hc u b u (List.Sublist.cons_cons u (List.Sublist.cons_cons b (List.singleton_sublist.mpr hm)))) rfl

theorem inside_convex {a b c : Pt} {rest : List Pt} (hc : Convex (a :: b :: c :: rest)) (pt : Pt) :
    par (crosses pt) a (b :: c :: rest ++ [a]) = true ↔ ∀ u v, Edge (a :: b :: c :: rest) u v → HalfLeft u v pt := by
  obtain ⟨p, g⟩ := generic_exists (a :: b :: c :: rest) pt
  rw [par_congr (cr' := cr p) _ _ (by
    intro u v hu hv
    refine cr_eq g ?_ ?_
    · simp only [List.cons_append, List.mem_cons, List.mem_append, List.not_mem_nil, or_false] at hu ⊢; tauto
    · simp only [List.cons_append, List.mem_cons, List.mem_append, List.not_mem_nil, or_false] at hv ⊢; tauto)]
  rw [par_polygon rest hc g.gen, leftOf_iff]
  constructor
  · intro h u v huv
    obtain ⟨hu, hv, hne⟩ := edge_distinct hc huv
    have := h u v (edge_cons.mp huv)
    by_contra hn
    have := (g.o u hu v hv hne).2 hn
    linarith
  · intro h u v huv
    have e := edge_cons.mpr huv
    obtain ⟨hu, hv, hne⟩ := edge_distinct hc e
    exact (g.o u hu v hv hne).1 (h u v e)

end Sbpl.Poly
