import Verif.Proofs.XYTHeur
/-! # Heuristics of the (x, y, theta) lattice: distances -/

namespace Sbpl
open XSpec XEnv XHeur GridSpec

theorem sqDist_cast (p q : Int × Int) : (sqDist p q : Int) = (p.1 - q.1) * (p.1 - q.1) + (p.2 - q.2) * (p.2 - q.2) := by
  unfold sqDist
  apply Int.toNat_of_nonneg
  nlinarith [mul_self_nonneg (p.1 - q.1), mul_self_nonneg (p.2 - q.2)]

theorem sqDist_symm (p q : Int × Int) : sqDist p q = sqDist q p := by
  have h1 := sqDist_cast p q
  have h2 := sqDist_cast q p
  have : (sqDist p q : Int) = sqDist q p := by rw [h1, h2]; ring
  exact_mod_cast this

theorem floorMulSqrt_spec {r : ℚ} (hr : 0 ≤ r) (k : Nat) :
    ((floorMulSqrt r k : Nat) : ℚ) * floorMulSqrt r k ≤ r * r * k ∧
    r * r * k < ((floorMulSqrt r k : Nat) + 1 : ℚ) * (floorMulSqrt r k + 1) := by
  unfold floorMulSqrt
  have hn : (r.num.toNat : ℚ) = r.num := by
    have : (r.num.toNat : Int) = r.num := Int.toNat_of_nonneg (Rat.num_nonneg.mpr hr)
    exact_mod_cast this
  have hb : (0 : ℚ) < r.den := by exact_mod_cast r.pos
  have e : r = (r.num.toNat : ℚ) / r.den := by rw [hn]; exact (Rat.num_div_den r).symm
  have hb' : 0 < r.den := r.pos
  generalize r.num.toNat = a at *
  generalize hden : r.den = b at *
  rw [e]
  have h1 := Nat.sqrt_le (a * a * k)
  have h2 := Nat.lt_succ_sqrt (a * a * k)
  generalize Nat.sqrt (a * a * k) = q at *
  have h3 : q / b * b ≤ q := Nat.div_mul_le_self q b
  have h4 : q < (q / b + 1) * b := by
    have := Nat.lt_mul_div_succ q hb'
    rw [Nat.mul_comm]; exact this
  generalize q / b = v at *
  have h5 : (v * b) * (v * b) ≤ a * a * k := le_trans (Nat.mul_le_mul h3 h3) h1
  have h6 : a * a * k < ((v + 1) * b) * ((v + 1) * b) := lt_of_lt_of_le h2 (Nat.mul_le_mul h4 h4)
  have h5' : (v * b : ℚ) * (v * b) ≤ a * a * k := by exact_mod_cast h5
  have h6' : (a * a * k : ℚ) < ((v + 1) * b) * ((v + 1) * b) := by exact_mod_cast h6
  have e2 : (a : ℚ) / b * (a / b) * k = (a * a * k) / (b * b) := by field_simp
  rw [e2]
  constructor
  · rw [le_div_iff₀ (by positivity)]; nlinarith
  · rw [div_lt_iff₀ (by positivity)]; nlinarith

theorem floorDist_floorMulSqrt {r : ℚ} (hr : 0 ≤ r) (p q : Int × Int) : FloorDist r p q (floorMulSqrt r (sqDist p q)) := by
  obtain ⟨h1, h2⟩ := floorMulSqrt_spec hr (sqDist p q)
  have e : ((sqDist p q : Nat) : ℚ) = (((p.1 - q.1) * (p.1 - q.1) + (p.2 - q.2) * (p.2 - q.2) : Int) : ℚ) := by
    have := sqDist_cast p q
    exact_mod_cast this
  rw [e] at h1 h2
  exact ⟨h1, h2⟩

theorem le_of_sq {a b : ℚ} (hb : 0 ≤ b) (h : a * a ≤ b * b) : a ≤ b := by
  by_contra hc
  push Not at hc
  nlinarith

/-- a bound on the distance bounds the floor -/
theorem floorDist_le {r X : ℚ} {p q : Int × Int} {v : Nat} (h : FloorDist r p q v) (hX : 0 ≤ X)
    (hd : r * r * ((p.1 - q.1) * (p.1 - q.1) + (p.2 - q.2) * (p.2 - q.2) : Int) ≤ X * X) : (v : ℚ) ≤ X :=
  le_of_sq hX (le_trans h.1 hd)

/-- triangle inequality in squared form -/
theorem triQ {k X Y w1 w2 d1 d2 : ℚ} (hk : 0 ≤ k) (hX : 0 ≤ X) (hY : 0 ≤ Y) (hw : k * (w1 * w1 + w2 * w2) ≤ X * X)
    (hd : k * (d1 * d1 + d2 * d2) ≤ Y * Y) :
    k * ((w1 + d1) * (w1 + d1) + (w2 + d2) * (w2 + d2)) ≤ (X + Y) * (X + Y) := by
  have cs : (k * (w1 * d1 + w2 * d2)) * (k * (w1 * d1 + w2 * d2)) ≤ (X * Y) * (X * Y) := by
    have h0 : (w1 * d1 + w2 * d2) * (w1 * d1 + w2 * d2) ≤ (w1 * w1 + w2 * w2) * (d1 * d1 + d2 * d2) := by
      nlinarith [mul_self_nonneg (w1 * d2 - w2 * d1)]
    have hd0 : 0 ≤ k * (d1 * d1 + d2 * d2) := by
      apply mul_nonneg hk; nlinarith [mul_self_nonneg d1, mul_self_nonneg d2]
    have h1 : (k * (w1 * w1 + w2 * w2)) * (k * (d1 * d1 + d2 * d2)) ≤ (X * X) * (Y * Y) :=
      mul_le_mul hw hd hd0 (mul_self_nonneg X)
    have h2 := mul_le_mul_of_nonneg_left h0 (mul_nonneg hk hk)
    nlinarith
  have hab := le_of_sq (mul_nonneg hX hY) cs
  nlinarith

/-- strict version -/
theorem triQ_lt {k X Y w1 w2 d1 d2 : ℚ} (hk : 0 ≤ k) (hX : 0 < X) (hY : 0 ≤ Y) (hw : k * (w1 * w1 + w2 * w2) < X * X)
    (hd : k * (d1 * d1 + d2 * d2) ≤ Y * Y) :
    k * ((w1 + d1) * (w1 + d1) + (w2 + d2) * (w2 + d2)) < (X + Y) * (X + Y) := by
  have cs : (k * (w1 * d1 + w2 * d2)) * (k * (w1 * d1 + w2 * d2)) ≤ (X * Y) * (X * Y) := by
    have h0 : (w1 * d1 + w2 * d2) * (w1 * d1 + w2 * d2) ≤ (w1 * w1 + w2 * w2) * (d1 * d1 + d2 * d2) := by
      nlinarith [mul_self_nonneg (w1 * d2 - w2 * d1)]
    have hd0 : 0 ≤ k * (d1 * d1 + d2 * d2) := by
      apply mul_nonneg hk; nlinarith [mul_self_nonneg d1, mul_self_nonneg d2]
    have h1 : (k * (w1 * w1 + w2 * w2)) * (k * (d1 * d1 + d2 * d2)) ≤ (X * X) * (Y * Y) :=
      mul_le_mul hw.le hd hd0 (mul_self_nonneg X)
    have h2 := mul_le_mul_of_nonneg_left h0 (mul_nonneg hk hk)
    nlinarith
  have hab := le_of_sq (mul_nonneg hX.le hY) cs
  nlinarith

/-- the distance shrinks by at most the length of a step, also when rounded down (for a step of integral length, or rounded up) -/
theorem floorDist_step {r : ℚ} {p q g : Int × Int} {u v : Nat} (hu : FloorDist r p g u) (hv : FloorDist r q g v) {c : ℚ} (hc0 : 0 ≤ c)
    (hd : r * r * ((q.1 - p.1) * (q.1 - p.1) + (q.2 - p.2) * (q.2 - p.2) : Int) ≤ c * c) : (u : ℚ) < v + 1 + c := by
  have t := triQ_lt (k := r * r) (X := v + 1) (Y := c) (w1 := (q.1 : ℚ) - g.1) (w2 := (q.2 : ℚ) - g.2) (d1 := (p.1 : ℚ) - q.1) (d2 := (p.2 : ℚ) - q.2)
    (mul_self_nonneg r) (by positivity) hc0 (by have := hv.2; push_cast at this; exact this)
    (by push_cast at hd; convert hd using 1; ring)
  have e1 : (q.1 : ℚ) - g.1 + (p.1 - q.1) = p.1 - g.1 := by ring
  have e2 : (q.2 : ℚ) - g.2 + (p.2 - q.2) = p.2 - g.2 := by ring
  rw [e1, e2] at t
  have h1 := hu.1
  push_cast at h1
  by_contra hcon
  push Not at hcon
  have : ((v : ℚ) + 1 + c) * (v + 1 + c) ≤ u * u := mul_self_le_mul_self (by positivity) hcon
  linarith

/-- the displacement of an edge -/
theorem edge_fast {s : Setup} {vel : ℚ} (hv : 0 < vel) (hf : NotTooFast s vel) {grid : Int → Int → Nat} {m : MPrim} {p q : XKey} {c : Nat}
    (e : Edge s grid m p q c) :
    (1000 * s.cs) * (1000 * s.cs) * ((q.1 - p.1) * (q.1 - p.1) + (q.2.1 - p.2.1) * (q.2.1 - p.2.1) : Int) ≤ (c * vel) * (c * vel) := by
  have h := hf m e.mem
  have e1 : q.1 - p.1 = m.dX := by rw [e.endX]; ring
  have e2 : q.2.1 - p.2.1 = m.dY := by rw [e.endY]; ring
  rw [e1, e2]
  refine le_trans h ?_
  obtain ⟨v, -, hc⟩ := e.cost
  have hcc : (m.cost : ℚ) ≤ c := by
    have : m.cost ≤ c := by rw [hc]; exact Nat.le_mul_of_pos_right _ (by omega)
    exact_mod_cast this
  have h0 : (0 : ℚ) ≤ m.cost * vel := by positivity
  have h1 : (m.cost : ℚ) * vel ≤ c * vel := mul_le_mul_of_nonneg_right hcc hv.le
  exact mul_self_le_mul_self h0 h1

/-- the displacement of a walk -/
theorem walk_fast {s : Setup} {vel : ℚ} (hv : 0 < vel) (hf : NotTooFast s vel) {grid : Int → Int → Nat} {p q : XKey} {n : Nat}
    (w : LWalk s grid p q n) :
    (1000 * s.cs) * (1000 * s.cs) * ((q.1 - p.1) * (q.1 - p.1) + (q.2.1 - p.2.1) * (q.2.1 - p.2.1) : Int) ≤ (n * vel) * (n * vel) := by
  induction w with
  | nil => simp
  | @snoc b t n c m w e ih =>
    have h2 := edge_fast hv hf e
    push_cast at ih h2 ⊢
    have := triQ (mul_self_nonneg (1000 * s.cs)) (by positivity) (by positivity) ih h2
    convert this using 1 <;> ring

theorem lwalk_trans {s : Setup} {grid : Int → Int → Nat} {p q r : XKey} {n k : Nat} (w : LWalk s grid p q n) (w2 : LWalk s grid q r k) :
    LWalk s grid p r (n + k) := by
  induction w2 with
  | nil => exact w
  | snoc m _ e ih => rw [← Nat.add_assoc]; exact .snoc m ih e

/-! ## 2D ways along lattice transitions -/

/-- the 2D map of a setup with current costs `grid` -/
def map2D (s : Setup) (grid : Int → Int → Nat) : Map :=
  { W := s.W.toNat, H := s.H.toNat, cost := fun c => grid c.1 c.2, thr := s.inscr, mm := (1000 * s.cs).num.toNat, den := (1000 * s.cs).den }

theorem map2D_describes (s : Setup) (grid : Int → Int → Nat) :
    GridProps.Describes (map2D s grid) s.W.toNat s.H.toNat 1 (1000 * s.cs).num.toNat (1000 * s.cs).den grid s.inscr := by
  refine ⟨by simp [map2D], by simp [map2D], rfl, by simp [map2D], rfl, ?_⟩
  intro c
  refine ⟨⟨0, 0, by omega, by omega, by simp [map2D]⟩, ?_⟩
  intro i j hi hj
  have : i = 0 := by omega
  have : j = 0 := by omega
  subst_vars
  simp [map2D]

theorem map2D_inside {s : Setup} {grid : Int → Int → Nat} {p : Int × Int} : (map2D s grid).Inside p ↔ InMap s p := by
  unfold Map.Inside InMap map2D
  simp only
  omega

/-- the largest cost among finitely many touched cells -/
theorem exists_max (f : Int × Int → Nat) (l : List (Int × Int)) (hl : l ≠ []) : ∃ r ∈ l, ∀ x ∈ l, f x ≤ f r := by
  induction l with
  | nil => exact absurd rfl hl
  | cons a l ih =>
    by_cases h : l = []
    · subst h; exact ⟨a, by simp, by simp⟩
    · obtain ⟨r, hr, hm⟩ := ih h
      by_cases hc : f a ≤ f r
      · exact ⟨r, by simp [hr], by intro x hx; rcases List.mem_cons.mp hx with rfl | hx; exact hc; exact hm x hx⟩
      · exact ⟨a, by simp, by intro x hx; rcases List.mem_cons.mp hx with rfl | hx; exact le_refl _; have := hm x hx; omega⟩

theorem touched_shift (p : Int × Int) (a : Int × Int) (dx dy : Int) (r : Int × Int) :
    r ∈ touched (a.1 + p.1, a.2 + p.2) dx dy ↔ ∃ r' ∈ touched a dx dy, r = (r'.1 + p.1, r'.2 + p.2) := by
  have e1 : ∀ x y z : Int, x + y + z = x + z + y := by intros; omega
  unfold touched
  split_ifs <;> simp only [List.mem_cons, List.not_mem_nil, or_false, exists_eq_or_imp, exists_eq_left] <;> simp only [e1 _ p.1, e1 _ p.2]

theorem touched_ends (a : Int × Int) (dx dy : Int) : a ∈ touched a dx dy ∧ (a.1 + dx, a.2 + dy) ∈ touched a dx dy := by
  unfold touched
  split_ifs <;> simp

/-- a chain of a primitive, executed from `p` -/
theorem chain_way {s : Setup} {grid : Int → Int → Nat} {m : MPrim} {p q : XKey} {c : Nat} (e : Edge s grid m p q c)
    {v : Nat} (hv : ∀ z, (z = (p.1, p.2.1) ∨ z = (q.1, q.2.1) ∨ ∃ r, Centre s m r ∧ z = shift p r) → grid z.1 z.2 ≤ v) {a : Int × Int} {n : Nat} (ch : Chain s m a n) :
    ∃ k, (map2D s grid).Way (p.1, p.2.1) (shift p a) k ∧ k ≤ n * (v + 1) := by
  induction ch with
  | nil => exact ⟨0, by rw [show shift p (0, 0) = (p.1, p.2.1) by simp [shift]]; exact .nil, by simp⟩
  | @snoc a b n l _ hl ht ih =>
    obtain ⟨k, w, hk⟩ := ih
    have key : ∀ r ∈ touched (shift p a) ((shift p b).1 - (shift p a).1) ((shift p b).2 - (shift p a).2),
        InMap s r ∧ grid r.1 r.2 < s.inscr ∧ grid r.1 r.2 ≤ v := by
      intro r hr
      have e1 : (shift p b).1 - (shift p a).1 = b.1 - a.1 := by simp [shift]
      have e2 : (shift p b).2 - (shift p a).2 = b.2 - a.2 := by simp [shift]
      rw [e1, e2] at hr
      obtain ⟨r', hr', rfl⟩ := (touched_shift (p.1, p.2.1) a _ _ r).mp hr
      rcases ht r' hr' with h | h | ⟨h, hth⟩
      · subst h
        have e3 : ((m.dX + p.1, m.dY + p.2.1) : Int × Int) = (q.1, q.2.1) := by rw [e.endX, e.endY]; simp [Int.add_comm]
        have gen : ∀ z : Int × Int, z = (q.1, q.2.1) → InMap s z ∧ grid z.1 z.2 < s.inscr ∧ grid z.1 z.2 ≤ v := by
          rintro z rfl; exact ⟨e.dst.1, e.dst.2.2, hv _ (Or.inr (Or.inl rfl))⟩
        exact gen _ e3
      · exact ⟨(e.centre r' h).1, (e.centre r' h).2, hv _ (Or.inr (Or.inr ⟨r', h, rfl⟩))⟩
      · subst h
        have e3 : (((0, 0) : Int × Int).1 + p.1, ((0, 0) : Int × Int).2 + p.2.1) = (p.1, p.2.1) := by simp
        have gen : ∀ z : Int × Int, z = (p.1, p.2.1) → InMap s z ∧ grid z.1 z.2 < s.inscr ∧ grid z.1 z.2 ≤ v := by
          rintro z rfl; exact ⟨e.src.1, by have := e.src.2; dsimp only at *; omega, hv _ (Or.inl rfl)⟩
        exact gen _ e3
    obtain ⟨t1, t2⟩ := touched_ends (shift p a) ((shift p b).1 - (shift p a).1) ((shift p b).2 - (shift p a).2)
    have t2' : shift p b ∈ touched (shift p a) ((shift p b).1 - (shift p a).1) ((shift p b).2 - (shift p a).2) := by
      convert t2 using 1
      ext <;> simp
    obtain ⟨r, hr, hm⟩ := exists_max (fun z => grid z.1 z.2) (touched (shift p a) ((shift p b).1 - (shift p a).1) ((shift p b).2 - (shift p a).2))
      (by intro h; rw [h] at t1; cases t1)
    refine ⟨k + (grid r.1 r.2 + 1) * l, .snoc w ⟨map2D_inside.mpr (key _ t1).1, map2D_inside.mpr (key _ t2').1, l, grid r.1 r.2, ?_, ⟨r, hr, rfl⟩, hm,
      (key r hr).2.1, rfl⟩, ?_⟩
    · show moveLen (1000 * s.cs).num.toNat (1000 * s.cs).den _ _ = some l
      rw [show (shift p b).1 - (shift p a).1 = b.1 - a.1 by simp [shift], show (shift p b).2 - (shift p a).2 = b.2 - a.2 by simp [shift]]
      exact hl
    · have h1 := (key r hr).2.2
      have h2 : (grid r.1 r.2 + 1) * l ≤ (v + 1) * l := Nat.mul_le_mul_right _ (by omega)
      nlinarith

/-- a transition can be followed in 2D in no more time -/
theorem edge_way {s : Setup} {vel : ℚ} (hv : 0 < vel) (hf : Followable s vel) {grid : Int → Int → Nat} {m : MPrim} {p q : XKey} {c : Nat}
    (e : Edge s grid m p q c) : ∃ k, (map2D s grid).Way (p.1, p.2.1) (q.1, q.2.1) k ∧ (k : ℚ) ≤ c * vel := by
  obtain ⟨n, ch, hn⟩ := hf m e.mem
  obtain ⟨v, hm, hc⟩ := e.cost
  obtain ⟨k, w, hk⟩ := chain_way e (v := v) (fun z hz => hm.1 z hz) ch
  refine ⟨k, ?_, ?_⟩
  · convert w using 1
    unfold shift
    rw [e.endX, e.endY]; simp [Int.add_comm]
  · have h1 : (k : ℚ) ≤ n * (v + 1) := by exact_mod_cast hk
    have h2 : (n : ℚ) * (v + 1) ≤ m.cost * vel * (v + 1) := mul_le_mul_of_nonneg_right hn (by positivity)
    rw [hc]; push_cast
    nlinarith

theorem walk_way {s : Setup} {vel : ℚ} (hv : 0 < vel) (hf : Followable s vel) {grid : Int → Int → Nat} {p q : XKey} {n : Nat}
    (w : LWalk s grid p q n) : ∃ k, (map2D s grid).Way (p.1, p.2.1) (q.1, q.2.1) k ∧ (k : ℚ) ≤ n * vel := by
  induction w with
  | nil => exact ⟨0, .nil, by simp⟩
  | snoc m _ e ih =>
    obtain ⟨k, w1, h1⟩ := ih
    obtain ⟨k2, w2, h2⟩ := edge_way hv hf e
    exact ⟨k + k2, Grid2D.way_trans w1 w2, by push_cast; linarith⟩

end Sbpl
