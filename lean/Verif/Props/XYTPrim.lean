import Verif.Spec.XYTPrim
import Verif.Props.Angles
import Verif.Props.XYTHeurEx
import Verif.Props.XYTPath
import Mathlib.Tactic.Linarith
import Mathlib.Tactic.Ring
/-!
# Motion primitives and lists of headings (C138 – C140)
-/

namespace Sbpl.XYTPrimProps
open XSpec XPrim Utils XEnv AngleProps

/-! ## C138: the cost of a primitive -/

theorem linearDist_nonneg : ∀ l, 0 ≤ linearDist l
  | [] => by unfold linearDist; exact le_refl _
  | [_] => by unfold linearDist; exact le_refl _
  | a :: b :: l => by
    unfold linearDist
    have := linearDist_nonneg (b :: l)
    have := Real.sqrt_nonneg ((((b.1 - a.1) * (b.1 - a.1) + (b.2.1 - a.2.1) * (b.2.1 - a.2.1) : ℚ)) : ℝ)
    linarith

/-- the smallest whole number of milliseconds that covers a length and an angle -/
theorem ceil_least {L : ℝ} {A vel tt : ℚ} (hl : 0 ≤ L) (hv : 0 < vel) (ht : 0 ≤ tt) (n : ℤ) :
    ⌈1000 * max (L / (vel : ℝ)) ((A / ((PI_CONST / 4) / tt) : ℚ) : ℝ)⌉ ≤ n ↔ 1000 * L ≤ n * (vel : ℝ) ∧ 1000 * (A * tt) ≤ n * (PI_CONST / 4) := by
  have hvr : (0 : ℝ) < (vel : ℝ) := by exact_mod_cast hv
  have hpi : 0 < PI_CONST / 4 := by have := pi_pos; linarith
  rw [Int.ceil_le, mul_max_of_nonneg _ _ (by norm_num : (0:ℝ) ≤ 1000), max_le_iff]
  have h1 : 1000 * (L / (vel : ℝ)) ≤ (n : ℝ) ↔ 1000 * L ≤ n * (vel : ℝ) := by
    rw [← mul_div_assoc, div_le_iff₀ hvr]
  rw [h1]
  refine and_congr_right (fun hn => ?_)
  have hn0 : (0 : ℝ) ≤ (n : ℝ) := by
    by_contra hneg
    have := mul_neg_of_neg_of_pos (not_le.mp hneg) hvr
    linarith
  have hn0' : (0 : ℚ) ≤ (n : ℚ) := by exact_mod_cast hn0
  rcases ht.eq_or_lt with h0 | h0
  · subst h0
    simp only [div_zero, Rat.cast_zero, mul_zero]
    exact ⟨fun _ => mul_nonneg hn0' hpi.le, fun _ => hn0⟩
  · have e : A / (PI_CONST / 4 / tt) = A * tt / (PI_CONST / 4) := by
      rw [div_div_eq_mul_div]
    rw [e]
    have : (1000 * ((A * tt / (PI_CONST / 4) : ℚ) : ℝ) ≤ (n : ℝ)) ↔ 1000 * (A * tt / (PI_CONST / 4)) ≤ (n : ℚ) := by
      exact_mod_cast Iff.rfl
    rw [this, ← mul_div_assoc, div_le_iff₀ hpi]

/-- **C138** The cost of a primitive before the multiplier is the smallest whole number of milliseconds in which the robot can both drive the length of the primitive at the nominal velocity
and turn by its angle at the nominal rate. -/
theorem cost_least (T : Nat) {vel tt : ℚ} (hv : 0 < vel) (ht : 0 ≤ tt) (r : RawPrim) (n : ℤ) :
    baseCost T vel tt r ≤ n ↔ 1000 * linearDist r.pts ≤ n * (vel : ℝ) ∧ 1000 * (angularDist T r * tt) ≤ n * (PI_CONST / 4) := by
  exact ceil_least (linearDist_nonneg r.pts) hv ht n

/-- **C138** ... where the angle is the smallest rotation between the two headings. -/
theorem angle_least {T : Nat} {r : RawPrim} (ok : RawOk T r) :
    Rotation (r.endTheta * (2 * PI_CONST / T)) (r.startTheta * (2 * PI_CONST / T)) (angularDist T r) := by
  obtain ⟨h1, -, h3, h4⟩ := minUnsignedAngleDiff_spec (discTheta2Cont r.endTheta T) (discTheta2Cont r.startTheta T)
  have e1 : toChar r.endTheta = r.endTheta := by have := ok.fits; unfold toChar; omega
  have e2 : toChar r.startTheta = r.startTheta := by have := ok.fits; have := ok.start; unfold toChar; omega
  unfold angularDist
  rw [e1, e2, abs_of_nonneg h1]
  have d : ∀ z : ℤ, discTheta2Cont z T = z * (2 * PI_CONST / T) := fun z => by simp [discTheta2Cont]
  rw [d, d] at h3 h4 ⊢
  exact ⟨h3, h4⟩

/-- triangle inequality in the plane -/
theorem sqrt_triangle (a b c d : ℝ) : Real.sqrt ((a + c) * (a + c) + (b + d) * (b + d)) ≤ Real.sqrt (a * a + b * b) + Real.sqrt (c * c + d * d) := by
  have h1 : 0 ≤ a * a + b * b := by nlinarith [mul_self_nonneg a, mul_self_nonneg b]
  have h2 : 0 ≤ c * c + d * d := by nlinarith [mul_self_nonneg c, mul_self_nonneg d]
  have u1 := Real.mul_self_sqrt h1
  have u2 := Real.mul_self_sqrt h2
  have p1 := Real.sqrt_nonneg (a * a + b * b)
  have p2 := Real.sqrt_nonneg (c * c + d * d)
  set u := Real.sqrt (a * a + b * b)
  set v := Real.sqrt (c * c + d * d)
  have key : a * c + b * d ≤ u * v := by
    by_contra hlt
    have h3 := not_le.mp hlt
    have h4 := mul_self_lt_mul_self (mul_nonneg p1 p2) h3
    have h5 : u * v * (u * v) = (a * a + b * b) * (c * c + d * d) := by rw [← u1, ← u2]; ring
    nlinarith [mul_self_nonneg (a * d - b * c)]
  rw [Real.sqrt_le_left (by linarith)]
  nlinarith

/-- the straight distance is at most the length -/
theorem dist_le_linear : ∀ {l : List (ℚ × ℚ × ℚ)} {p q : ℚ × ℚ × ℚ}, l.head? = some p → l.getLast? = some q →
    Real.sqrt ((((q.1 - p.1) * (q.1 - p.1) + (q.2.1 - p.2.1) * (q.2.1 - p.2.1) : ℚ)) : ℝ) ≤ linearDist l := by
  intro l
  induction l with
  | nil => intro p q h; simp at h
  | cons a l ih =>
    intro p q hp hq
    simp only [List.head?_cons, Option.some.injEq] at hp
    subst hp
    cases l with
    | nil =>
      simp only [List.getLast?_singleton, Option.some.injEq] at hq
      subst hq
      simp [linearDist]
    | cons b l =>
      rw [List.getLast?_cons_cons] at hq
      have := ih rfl hq
      unfold linearDist
      have t := sqrt_triangle ((b.1 - a.1 : ℚ) : ℝ) ((b.2.1 - a.2.1 : ℚ) : ℝ) ((q.1 - b.1 : ℚ) : ℝ) ((q.2.1 - b.2.1 : ℚ) : ℝ)
      push_cast at *
      have e1 : (b.1 : ℝ) - a.1 + (q.1 - b.1) = q.1 - a.1 := by ring
      have e2 : (b.2.1 : ℝ) - a.2.1 + (q.2.1 - b.2.1) = q.2.1 - a.2.1 := by ring
      rw [e1, e2] at t
      linarith

theorem base_nonneg (T : Nat) {vel tt : ℚ} (hv : 0 < vel) (ht : 0 ≤ tt) (r : RawPrim) : 0 ≤ baseCost T vel tt r := by
  have hvr : (0 : ℝ) < (vel : ℝ) := by exact_mod_cast hv
  have h := ((cost_least T hv ht r (baseCost T vel tt r)).mp (le_refl _)).1
  have hl := linearDist_nonneg r.pts
  by_contra hneg
  have : ((baseCost T vel tt r : ℤ) : ℝ) < 0 := by exact_mod_cast not_le.mp hneg
  have := mul_neg_of_neg_of_pos this hvr
  linarith

theorem cost_ge (T : Nat) {vel tt : ℚ} (hv : 0 < vel) (ht : 0 ≤ tt) {r : RawPrim} (hm : 1 ≤ r.mult) : baseCost T vel tt r ≤ ((mkPrim T vel tt r).cost : ℤ) := by
  have h0 := base_nonneg T hv ht r
  unfold mkPrim
  have h1 : (1 : ℤ) ≤ r.mult := by exact_mod_cast hm
  have : baseCost T vel tt r * 1 ≤ baseCost T vel tt r * r.mult := mul_le_mul_of_nonneg_left h1 h0
  dsimp only
  rw [Int.toNat_of_nonneg (by linarith)]
  linarith

/-- **C138** The cost of the primitive is this number times its multiplier. -/
theorem cost_mult (T : Nat) {vel tt : ℚ} (hv : 0 < vel) (ht : 0 ≤ tt) (r : RawPrim) : ((mkPrim T vel tt r).cost : ℤ) = r.mult * baseCost T vel tt r := by
  have h0 := base_nonneg T hv ht r
  unfold mkPrim
  dsimp only
  rw [Int.toNat_of_nonneg (mul_nonneg h0 (by omega))]
  ring

/-- **C138** Driving time: the cost of a primitive is at least the time its length takes at the nominal velocity. -/
theorem cost_covers_length {T : Nat} {vel tt : ℚ} (hv : 0 < vel) (ht : 0 ≤ tt) {r : RawPrim} (hm : 1 ≤ r.mult) :
    1000 * linearDist r.pts ≤ (mkPrim T vel tt r).cost * (vel : ℝ) := by
  have := ((cost_least T hv ht r _).mp (cost_ge T hv ht hm)).1
  simpa using this

/-- primitives whose costs cover their lengths -/
theorem not_too_fast_of {s : Setup} {vel : ℚ} {f : RawPrim → MPrim} {raws : List RawPrim} (hs : s.prims = raws.map f)
    (hr : ∀ r ∈ raws, RawExact s.cs r ∧ (f r).dX = r.dX ∧ (f r).dY = r.dY ∧ 1000 * linearDist r.pts ≤ (f r).cost * (vel : ℝ)) : NotTooFast s vel := by
  intro m hm
  rw [hs] at hm
  obtain ⟨r, hr', rfl⟩ := List.mem_map.mp hm
  obtain ⟨⟨⟨th, hp⟩, ⟨th', hq⟩⟩, hx, hy, h2⟩ := hr r hr'
  have h1 := dist_le_linear hp hq
  set C := (f r).cost
  rw [hx, hy]
  dsimp only at h1
  have hd : 0 ≤ (((s.cs * r.dX - 0) * (s.cs * r.dX - 0) + (s.cs * r.dY - 0) * (s.cs * r.dY - 0) : ℚ) : ℝ) := by
    have : 0 ≤ (s.cs * r.dX - 0) * (s.cs * r.dX - 0) + (s.cs * r.dY - 0) * (s.cs * r.dY - 0) := add_nonneg (mul_self_nonneg _) (mul_self_nonneg _)
    exact_mod_cast this
  have hss := Real.mul_self_sqrt hd
  have hs0 := Real.sqrt_nonneg (((s.cs * r.dX - 0) * (s.cs * r.dX - 0) + (s.cs * r.dY - 0) * (s.cs * r.dY - 0) : ℚ) : ℝ)
  set R := Real.sqrt (((s.cs * r.dX - 0) * (s.cs * r.dX - 0) + (s.cs * r.dY - 0) * (s.cs * r.dY - 0) : ℚ) : ℝ)
  have h3 : 1000 * R ≤ C * (vel : ℝ) := le_trans (mul_le_mul_of_nonneg_left h1 (by norm_num)) h2
  have h4 : (1000 * R) * (1000 * R) ≤ (C * (vel : ℝ)) * (C * (vel : ℝ)) := mul_self_le_mul_self (mul_nonneg (by norm_num) hs0) h3
  have h5 : ((1000 * s.cs * (1000 * s.cs) * ((r.dX * r.dX + r.dY * r.dY : ℤ) : ℚ) : ℚ) : ℝ) ≤ ((C * vel * (C * vel) : ℚ) : ℝ) := by
    have e : ((1000 * s.cs * (1000 * s.cs) * ((r.dX * r.dX + r.dY * r.dY : ℤ) : ℚ) : ℚ) : ℝ) = (1000 * R) * (1000 * R) := by
      have : (1000 * R) * (1000 * R) = 1000 * 1000 * (R * R) := by ring
      rw [this, hss]; push_cast; ring
    rw [e]; push_cast; linarith
  exact_mod_cast h5

/-- **C138** The computed costs satisfy what C56 – C58 assume of them (`NotTooFast`), if the primitives begin and end at the centres of their cells. -/
theorem computed_not_too_fast {s : Setup} {vel tt : ℚ} (hv : 0 < vel) (ht : 0 ≤ tt) {raws : List RawPrim} (hs : s.prims = raws.map (mkPrim s.T vel tt))
    (hr : ∀ r ∈ raws, RawExact s.cs r ∧ 1 ≤ r.mult) : NotTooFast s vel := by
  exact not_too_fast_of hs (fun r hr' => ⟨(hr r hr').1, rfl, rfl, cost_covers_length hv ht (hr r hr').2⟩)

/-- **C138** Every primitive that moves the robot or changes its heading has a positive cost (the turning time being positive), which C58 assumes (`CostAtLeast s 1`). -/
theorem computed_positive {s : Setup} {vel tt : ℚ} (hv : 0 < vel) (ht : 0 < tt) {raws : List RawPrim} (hs : s.prims = raws.map (mkPrim s.T vel tt)) (hcs : 0 < s.cs)
    (hr : ∀ r ∈ raws, RawExact s.cs r ∧ RawOk s.T r ∧ (r.dX ≠ 0 ∨ r.dY ≠ 0 ∨ ¬ ∃ k, r.endTheta = r.startTheta + k * s.T)) : CostAtLeast s 1 := by
  intro m hm
  have hm0 := hm
  rw [hs] at hm
  obtain ⟨r, hr', rfl⟩ := List.mem_map.mp hm
  obtain ⟨hex, ok, hmove⟩ := hr r hr'
  by_contra hlt
  have h0 : (mkPrim s.T vel tt r).cost = 0 := by omega
  have hb := cost_ge s.T hv ht.le ok.mult
  rw [h0] at hb
  obtain ⟨c1, c2⟩ := (cost_least s.T hv ht.le r _).mp hb
  have hnf := computed_not_too_fast hv ht.le hs (fun r hr' => ⟨(hr r hr').1, (hr r hr').2.1.mult⟩) _ hm0
  rw [h0] at hnf
  have hd : (mkPrim s.T vel tt r).dX = r.dX ∧ (mkPrim s.T vel tt r).dY = r.dY := ⟨rfl, rfl⟩
  rw [hd.1, hd.2] at hnf
  have hk : 0 < 1000 * s.cs * (1000 * s.cs) := by positivity
  have hz : ((r.dX * r.dX + r.dY * r.dY : ℤ) : ℚ) ≤ 0 := by
    by_contra h
    have := mul_pos hk (not_le.mp h)
    push_cast at *
    linarith
  have hz' : r.dX * r.dX + r.dY * r.dY ≤ 0 := by exact_mod_cast hz
  have hx : r.dX = 0 := by nlinarith [mul_self_nonneg r.dX, mul_self_nonneg r.dY]
  have hy : r.dY = 0 := by nlinarith [mul_self_nonneg r.dX, mul_self_nonneg r.dY]
  rcases hmove with h | h | h
  · exact h hx
  · exact h hy
  · apply h
    obtain ⟨⟨k, hk⟩, -⟩ := angle_least ok
    have ha : angularDist s.T r ≤ 0 := by
      by_contra hpos
      have := mul_pos (not_le.mp hpos) ht
      push_cast at c2
      linarith
    rw [hk] at ha
    have h0 := abs_eq_zero.mp (le_antisymm ha (abs_nonneg _))
    refine ⟨-k, ?_⟩
    have hT : (0 : ℚ) < s.T := by
      have := ok.start
      have : (0 : ℤ) < s.T := by omega
      exact_mod_cast this
    have hpi := pi_pos
    have e : (2 * PI_CONST / s.T) * ((r.endTheta : ℚ) - r.startTheta + k * s.T) = 0 := by
      have : (2 * PI_CONST / (s.T : ℚ)) * (k * s.T) = k * (2 * PI_CONST) := by field_simp
      rw [mul_add, this]; linarith
    rcases mul_eq_zero.mp e with h | h
    · exact absurd h (div_pos (by linarith) hT).ne'
    · have : ((r.endTheta - r.startTheta + k * s.T : ℤ) : ℚ) = 0 := by push_cast; exact h
      have : r.endTheta - r.startTheta + k * s.T = 0 := by exact_mod_cast this
      linarith

/-- the cost of a path of primitives whose costs cover their lengths -/
theorem path_covers_of {s : Setup} {vel : ℚ} (hv : 0 < vel) {f : RawPrim → MPrim} {raws : List RawPrim} (hs : s.prims = raws.map f)
    (hr : ∀ r ∈ raws, RawExact s.cs r ∧ (f r).dX = r.dX ∧ (f r).dY = r.dY ∧ 1000 * linearDist r.pts ≤ (f r).cost * (vel : ℝ))
    {grid : Int → Int → Nat} {ks : List XKey} {n : Nat} {p q : XKey} (h : LPath s grid ks n) (hp : ks.head? = some p)
    (hq : ks.getLast? = some q) :
    1000 * Real.sqrt ((((centreOf s q).1 - (centreOf s p).1) * ((centreOf s q).1 - (centreOf s p).1) +
      ((centreOf s q).2 - (centreOf s p).2) * ((centreOf s q).2 - (centreOf s p).2) : ℚ) : ℝ) ≤ n * (vel : ℝ) := by
  induction h generalizing p with
  | single k =>
    simp only [List.head?_cons, Option.some.injEq] at hp
    simp only [List.getLast?_singleton, Option.some.injEq] at hq
    subst hp; subst hq
    simp
  | @cons k k' c n l m e _ ih =>
    simp only [List.head?_cons, Option.some.injEq] at hp
    subst hp
    rw [List.getLast?_cons_cons] at hq
    have ih' := ih rfl hq
    have hm := e.mem
    rw [hs] at hm
    obtain ⟨r, hr', hrm⟩ := List.mem_map.mp hm
    obtain ⟨⟨⟨th, hp⟩, ⟨th', hq'⟩⟩, hx0, hy0, h2⟩ := hr r hr'
    have h1 := dist_le_linear hp hq'
    rw [hrm] at h2
    have hdX : r.dX = m.dX := by rw [← hrm, hx0]
    have hdY : r.dY = m.dY := by rw [← hrm, hy0]
    rw [hdX, hdY] at h1
    obtain ⟨v, -, hc⟩ := e.cost
    have hvr : (0 : ℝ) < (vel : ℝ) := by exact_mod_cast hv
    have h3 : (m.cost : ℝ) * vel ≤ c * vel := by
      apply mul_le_mul_of_nonneg_right _ hvr.le
      have : m.cost ≤ c := by rw [hc]; exact Nat.le_mul_of_pos_right _ (by omega)
      exact_mod_cast this
    have t := sqrt_triangle (((centreOf s k').1 - (centreOf s k).1 : ℚ) : ℝ) (((centreOf s k').2 - (centreOf s k).2 : ℚ) : ℝ)
      (((centreOf s q).1 - (centreOf s k').1 : ℚ) : ℝ) (((centreOf s q).2 - (centreOf s k').2 : ℚ) : ℝ)
    have ex : (centreOf s k').1 - (centreOf s k).1 = s.cs * m.dX - 0 := by unfold centreOf; rw [e.endX]; push_cast; ring
    have ey : (centreOf s k').2 - (centreOf s k).2 = s.cs * m.dY - 0 := by unfold centreOf; rw [e.endY]; push_cast; ring
    have e1 : (((centreOf s k').1 - (centreOf s k).1 : ℚ) : ℝ) + (((centreOf s q).1 - (centreOf s k').1 : ℚ) : ℝ) = (((centreOf s q).1 - (centreOf s k).1 : ℚ) : ℝ) := by
      push_cast; ring
    have e2 : (((centreOf s k').2 - (centreOf s k).2 : ℚ) : ℝ) + (((centreOf s q).2 - (centreOf s k').2 : ℚ) : ℝ) = (((centreOf s q).2 - (centreOf s k).2 : ℚ) : ℝ) := by
      push_cast; ring
    rw [e1, e2, ex, ey] at t
    have cast2 : ∀ x y : ℚ, ((x * x + y * y : ℚ) : ℝ) = (x : ℝ) * x + (y : ℝ) * y := by intro x y; push_cast; ring
    rw [cast2] at h1 ih' ⊢
    have cn : ((c + n : ℕ) : ℝ) * vel = c * vel + n * vel := by push_cast; ring
    rw [cn]
    linarith

/-- **C138** The cost of a path is at least the time the straight line between the centres of its end cells takes at the nominal velocity. -/
theorem path_cost_covers {s : Setup} {vel tt : ℚ} (hv : 0 < vel) (ht : 0 ≤ tt) {raws : List RawPrim} (hs : s.prims = raws.map (mkPrim s.T vel tt))
    (hr : ∀ r ∈ raws, RawExact s.cs r ∧ 1 ≤ r.mult) {grid : Int → Int → Nat} {ks : List XKey} {n : Nat} {p q : XKey} (h : LPath s grid ks n) (hp : ks.head? = some p)
    (hq : ks.getLast? = some q) :
    1000 * Real.sqrt ((((centreOf s q).1 - (centreOf s p).1) * ((centreOf s q).1 - (centreOf s p).1) +
      ((centreOf s q).2 - (centreOf s p).2) * ((centreOf s q).2 - (centreOf s p).2) : ℚ) : ℝ) ≤ n * (vel : ℝ) := by
  exact path_covers_of hv hs (fun r hr' => ⟨(hr r hr').1, rfl, rfl, cost_covers_length hv ht (hr r hr').2⟩) h hp hq

/-! ## C139: the end of a primitive -/

/-- **C139** A primitive is accepted exactly if its last pose, the robot having started at the centre of cell (0, 0), is in its end cell and has its end heading; then the centre of the robot
visits the end cell. -/
theorem accepted_end {s : Setup} {r : RawPrim} (h : checkEnd s.cs s.T r = .ok true) (vel tt : ℚ) : Centre s (mkPrim s.T vel tt r) (r.dX, r.dY) ∧
    ∃ p, r.pts.getLast? = some p ∧ contTheta2Disc p.2.2 s.T = r.endTheta := by
  unfold checkEnd at h
  split at h
  next => cases h
  next p hp =>
    have h := of_decide_eq_true (Except.ok.inj h)
    refine ⟨⟨p, List.mem_of_getLast? hp, ?_, ?_⟩, p, hp, h.2.2⟩
    · rw [← h.1]; simp [discXY2Cont, add_comm]
    · rw [← h.2.1]; simp [discXY2Cont, add_comm]

/-- **C139** An exact primitive whose last pose has the angle of its end heading is accepted. -/
theorem exact_accepted {cs : ℚ} (hcs : 0 < cs) {T : Nat} {r : RawPrim} (h0 : 0 ≤ r.endTheta) (hT : r.endTheta < T)
    (hl : r.pts.getLast? = some (cs * r.dX, cs * r.dY, r.endTheta * (2 * PI_CONST / T))) : checkEnd cs T r = .ok true := by
  unfold checkEnd
  rw [hl]
  have e : ∀ z : ℤ, discXY2Cont 0 cs + cs * z = discXY2Cont z cs := by intro z; unfold discXY2Cont; push_cast; ring
  have e2 : (r.endTheta : ℚ) * (2 * PI_CONST / T) = discTheta2Cont r.endTheta T := by simp [discTheta2Cont]
  simp only
  rw [e, e, UtilsProps.disc_cont_disc _ hcs, UtilsProps.disc_cont_disc _ hcs, e2, disc_cont_disc_theta h0 hT]
  simp

/-! ## C140: lists of headings -/

variable {T : Nat} {dirs : List ℚ}

theorem findBin_spec (theta : ℚ) : ∀ (l : List ℚ) (i : Nat),
    (∀ n, findBin theta i l = some n → i ≤ n ∧ (∃ a, l[n - i]? = some a ∧ theta ≤ a) ∧ ∀ m, m < n - i → ∀ a, l[m]? = some a → a < theta) ∧
    (findBin theta i l = none → ∀ a ∈ l, a < theta) := by
  intro l
  induction l with
  | nil => intro i; simp [findBin]
  | cons x l ih =>
    intro i
    unfold findBin
    by_cases hx : x ≥ theta
    · simp only [hx, if_true]
      refine ⟨?_, by simp⟩
      intro n hn
      cases hn
      exact ⟨le_refl _, ⟨x, by simp, hx⟩, by intro m hm; omega⟩
    · simp only [hx, if_false]
      obtain ⟨h1, h2⟩ := ih (i + 1)
      refine ⟨?_, ?_⟩
      · intro n hn
        obtain ⟨g1, ⟨a, ga, gb⟩, g3⟩ := h1 n hn
        refine ⟨by omega, ⟨a, ?_, gb⟩, ?_⟩
        · rw [show n - i = (n - (i + 1)) + 1 by omega, List.getElem?_cons_succ]; exact ga
        · intro m hm b hb
          cases m with
          | zero => simp at hb; subst hb; exact not_le.mp hx
          | succ m => rw [List.getElem?_cons_succ] at hb; exact g3 m (by omega) b hb
      · intro hn a ha
        rcases List.mem_cons.mp ha with rfl | ha
        · exact not_le.mp hx
        · exact h2 hn a ha

theorem dirs_lt (H : HeadingSet T dirs) {i j : Nat} {a b : ℚ} (ha : dirs[i]? = some a) (hb : dirs[j]? = some b) (hij : i < j) : a < b := by
  obtain ⟨hi, rfl⟩ := List.getElem?_eq_some_iff.mp ha
  obtain ⟨hj, rfl⟩ := List.getElem?_eq_some_iff.mp hb
  exact List.pairwise_iff_getElem.mp H.incr i j hi hj hij

theorem dirs_le (H : HeadingSet T dirs) {i j : Nat} {a b : ℚ} (ha : dirs[i]? = some a) (hb : dirs[j]? = some b) (hij : i ≤ j) : a ≤ b := by
  rcases hij.eq_or_lt with rfl | h
  · rw [ha] at hb; cases hb; exact le_refl _
  · exact (dirs_lt H ha hb h).le

theorem dirs_range (H : HeadingSet T dirs) {j : Nat} {b : ℚ} (hb : dirs[j]? = some b) : 0 ≤ b ∧ b ≤ TURN ∧ j ≤ T := by
  have hj : j ≤ T := by
    have := (List.getElem?_eq_some_iff.mp hb).1
    rw [H.len] at this; omega
  exact ⟨dirs_le H H.zero hb (Nat.zero_le _), dirs_le H hb H.full hj, hj⟩

/-- **C140** With a list of headings every angle is converted to a heading of the list that is nearest to it, by rotation. -/
theorem headings_nearest (H : HeadingSet T dirs) (th : ℚ) : ∃ (i : Nat) (a : ℚ), contTheta2DiscSet T dirs th = .ok i ∧ i < T ∧ dirs[i]? = some a ∧
    ∃ d, Rotation th a d ∧ ∀ (j : Nat) (b d' : ℚ), dirs[j]? = some b → Rotation th b d' → d ≤ d' := by
  obtain ⟨⟨k0, hk0⟩, hn0, hn1⟩ := normalize_cases th
  have hT := turn_pos
  have eT : 2 * PI_CONST = TURN := rfl
  have hn1' : normalizeAngle th ≤ TURN := by rcases hn1 with h | h; exact h.le; exact h.2.le
  set θ := normalizeAngle th with hθ
  have hlen : ¬ T ≥ dirs.length := by rw [H.len]; omega
  obtain ⟨f1, f2⟩ := findBin_spec θ dirs.tail 1
  have htail : ∀ n, dirs.tail[n]? = dirs[n + 1]? := by intro n; rw [List.getElem?_tail]
  cases hf : findBin θ 1 dirs.tail with
  | none =>
    exfalso
    have : TURN ∈ dirs.tail := by
      have h := htail (T - 1)
      rw [show T - 1 + 1 = T by have := H.pos; omega, H.full] at h
      exact List.mem_of_getElem? h
    have := f2 hf _ this
    linarith
  | some up =>
    obtain ⟨u1, ⟨hi, u2, u3⟩, u4⟩ := f1 up hf
    rw [htail, show up - 1 + 1 = up by omega] at u2
    have hupT : up ≤ T := (dirs_range H u2).2.2
    obtain ⟨lo, hlo⟩ : ∃ lo, dirs[up - 1]? = some lo := by
      have : up - 1 < dirs.length := by rw [H.len]; omega
      exact ⟨_, List.getElem?_eq_getElem this⟩
    have hlo' : lo ≤ θ := by
      by_cases h1 : up = 1
      · subst h1; rw [H.zero] at hlo; cases hlo; exact hn0
      · have := u4 (up - 2) (by omega) lo (by rw [htail, show up - 2 + 1 = up - 1 by omega]; exact hlo)
        exact this.le
    -- every heading is at least as far as the nearer of the two
    have far : ∀ (j : Nat) (b : ℚ), dirs[j]? = some b → ∀ k : ℤ, min (θ - lo) (hi - θ) ≤ |θ - b + k * TURN| := by
      intro j b hb k
      obtain ⟨b0, b1, -⟩ := dirs_range H hb
      have l0 := (dirs_range H hlo).1
      have h1 := (dirs_range H u2).2.1
      rcases lt_trichotomy k 0 with hk | hk | hk
      · have : (k : ℚ) + 1 ≤ 0 := by exact_mod_cast hk
        have : k * TURN ≤ -TURN := by nlinarith
        refine le_trans (min_le_right _ _) (le_trans ?_ (neg_le_abs _))
        linarith
      · subst hk
        simp only [Int.cast_zero, zero_mul, add_zero]
        by_cases hj : j ≤ up - 1
        · have := dirs_le H hb hlo hj
          refine le_trans (min_le_left _ _) (le_trans ?_ (le_abs_self _))
          linarith
        · have := dirs_le H u2 hb (by omega)
          refine le_trans (min_le_right _ _) (le_trans ?_ (neg_le_abs _))
          linarith
      · have : (1 : ℚ) ≤ k := by exact_mod_cast hk
        have : TURN ≤ k * TURN := by nlinarith
        refine le_trans (min_le_left _ _) (le_trans ?_ (le_abs_self _))
        linarith
    have shift : ∀ (b : ℚ) (k : ℤ), |th - b + k * (2 * PI_CONST)| = |θ - b + ((k - k0 : ℤ) : ℚ) * TURN| := by
      intro b k
      congr 1
      rw [hk0, eT]; push_cast; ring
    have far' : ∀ (j : Nat) (b : ℚ), dirs[j]? = some b → ∀ k : ℤ, min (θ - lo) (hi - θ) ≤ |th - b + k * (2 * PI_CONST)| := by
      intro j b hb k
      rw [shift]; exact far j b hb _
    have finish : ∀ (i : Nat) (a : ℚ), contTheta2DiscSet T dirs th = .ok i → i < T → dirs[i]? = some a → (∃ k : ℤ, min (θ - lo) (hi - θ) = |th - a + k * (2 * PI_CONST)|) →
        ∃ (i : Nat) (a : ℚ), contTheta2DiscSet T dirs th = .ok i ∧ i < T ∧ dirs[i]? = some a ∧ ∃ d, Rotation th a d ∧ ∀ (j : Nat) (b d' : ℚ), dirs[j]? = some b → Rotation th b d' → d ≤ d' := by
      intro i a h1 h2 h3 ⟨k, hk⟩
      refine ⟨i, a, h1, h2, h3, min (θ - lo) (hi - θ), ⟨⟨k, hk⟩, far' i a h3⟩, ?_⟩
      rintro j b d' hb ⟨⟨k', hk'⟩, -⟩
      rw [hk']; exact far' j b hb k'
    have hval : contTheta2DiscSet T dirs th = if |θ - lo| < |θ - hi| then .ok (up - 1) else .ok (if up = T then 0 else up) := by
      unfold contTheta2DiscSet
      simp only [← hθ, hlen, if_false, hf, hlo, u2]
    by_cases hc : |θ - lo| < |θ - hi|
    · rw [if_pos hc] at hval
      refine finish _ _ hval (by omega) hlo ⟨k0, ?_⟩
      rw [shift, sub_self]
      simp only [Int.cast_zero, zero_mul, add_zero]
      rw [abs_of_nonneg (by linarith : 0 ≤ θ - lo), abs_of_nonpos (by linarith : θ - hi ≤ 0)] at hc
      rw [abs_of_nonneg (by linarith : 0 ≤ θ - lo), min_eq_left (by linarith)]
    · rw [if_neg hc] at hval
      rw [abs_of_nonneg (by linarith : 0 ≤ θ - lo), abs_of_nonpos (by linarith : θ - hi ≤ 0)] at hc
      have hmin : min (θ - lo) (hi - θ) = |θ - hi| := by
        rw [abs_of_nonpos (by linarith : θ - hi ≤ 0), min_eq_right (by linarith)]; ring
      by_cases hu : up = T
      · rw [if_pos hu] at hval
        have hhi : hi = TURN := by rw [hu, H.full] at u2; cases u2; rfl
        refine finish _ _ hval H.pos H.zero ⟨k0 - 1, ?_⟩
        rw [shift, hmin, hhi]
        congr 1
        push_cast; ring
      · rw [if_neg hu] at hval
        refine finish _ _ hval (by omega) u2 ⟨k0, ?_⟩
        rw [shift, sub_self, hmin]
        simp

/-- **C140** Headings one turn too small or too large are converted to the angle of the heading they stand for. -/
theorem headings_wrap (H : HeadingSet T dirs) {i : Nat} (hi : i < T) {t : Int} (ht : t = i ∨ t = i - T ∨ t = i + T) :
    ∃ a, discTheta2ContSet T dirs t = .ok a ∧ dirs[i]? = some a := by
  obtain ⟨a, ha⟩ : ∃ a, dirs[i]? = some a := ⟨_, List.getElem?_eq_getElem (by rw [H.len]; omega)⟩
  refine ⟨a, ?_, ha⟩
  have hn : normSet T t = i := by
    unfold normSet
    dsimp only
    split_ifs <;> omega
  unfold discTheta2ContSet
  rw [hn]
  have h3 : ¬ T ≥ dirs.length := by rw [H.len]; omega
  have h1 : ¬ ((i : Int) < 0) := by omega
  have h4 : ¬ ((i : Int) > T) := by omega
  simp only [h1, if_false, h3, h4, or_false, Int.toNat_natCast, ha]

/-- **C140** Every heading of the list is converted to its angle and back. -/
theorem headings_roundtrip (H : HeadingSet T dirs) {i : Nat} (hi : i < T) : ∃ a, discTheta2ContSet T dirs i = .ok a ∧ dirs[i]? = some a ∧ contTheta2DiscSet T dirs a = .ok i := by
  obtain ⟨a, ha⟩ : ∃ a, dirs[i]? = some a := ⟨_, List.getElem?_eq_getElem (by rw [H.len]; omega)⟩
  refine ⟨a, ?_, ha, ?_⟩
  · unfold discTheta2ContSet normSet
    have h1 : ¬ ((i : Int) < 0) := by omega
    have h2 : ¬ ((i : Int) ≥ T) := by omega
    have h3 : ¬ T ≥ dirs.length := by rw [H.len]; omega
    have h4 : ¬ ((i : Int) > T) := by omega
    simp only [h1, if_false, h2, h3, h4, or_false, Int.toNat_natCast, ha]
  · obtain ⟨j, b, h1, h2, h3, d, ⟨⟨k, hk⟩, -⟩, hmin⟩ := headings_nearest H a
    have hrot : Rotation a a 0 := ⟨⟨0, by simp⟩, fun k => abs_nonneg _⟩
    have hd := hmin i a 0 ha hrot
    have h0 : a - b + k * TURN = 0 := abs_eq_zero.mp (le_antisymm (by rw [← hk]; exact hd) (abs_nonneg _))
    have hT := turn_pos
    have la := dirs_lt H ha H.full hi
    have lb := dirs_lt H h3 H.full h2
    have a0 := (dirs_range H ha).1
    have b0 := (dirs_range H h3).1
    have hk0 : k = 0 := by
      rcases lt_trichotomy k 0 with hk | hk | hk
      · have : (k : ℚ) + 1 ≤ 0 := by exact_mod_cast hk
        have : k * TURN ≤ -TURN := by nlinarith
        exfalso; have : 2 * PI_CONST = TURN := rfl; linarith
      · exact hk
      · have : (1 : ℚ) ≤ k := by exact_mod_cast hk
        have : TURN ≤ k * TURN := by nlinarith
        exfalso; have : 2 * PI_CONST = TURN := rfl; linarith
    rw [hk0] at h0
    have hab : a = b := by push_cast at h0; linarith
    have hij : i = j := by
      rcases lt_trichotomy i j with h | h | h
      · have := dirs_lt H ha h3 h; linarith
      · exact h
      · have := dirs_lt H h3 ha h; linarith
    rw [hij]; exact h1

end Sbpl.XYTPrimProps
