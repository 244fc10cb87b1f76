import Verif.Props.XYTAngles
import Verif.Props.XYTFile
/-!
# Costs of primitives between the headings of a list
-/

namespace Sbpl.XAngProps
open Sbpl XPrim Utils XEnv XSpec XAngSpec XYTPrimProps

/-- the two versions of normalizeDiscAngle agree on the headings at the end of actions -/
theorem norm_agree {T : Nat} {a : XAct} (h : 0 ≤ predIdx T a ∧ predIdx T a < T) : normSet T a.endTheta = normDiscTheta a.endTheta T := by
  rw [← predIdx_norm h]
  unfold predIdx at h ⊢
  unfold normSet
  dsimp only
  split_ifs at h ⊢ <;> omega

variable {T : Nat} {dirs : List ℚ}

/-- the angle of a heading of the list is defined -/
theorem angle_defined (H : HeadingSet T dirs) {i : Nat} (hi : i < T) : discTheta2ContSet T dirs i = .ok (angleOf T dirs i) ∧ dirs[i]? = some (angleOf T dirs i) := by
  obtain ⟨a, h1, h2, -⟩ := headings_roundtrip H hi
  have : angleOf T dirs i = a := by unfold angleOf; rw [h1]
  rw [this]
  exact ⟨h1, h2⟩

/-- angles of a file that begin with 0, increase and stay below 2π are a list of headings once 2π is appended -/
theorem headings_of_file {as : List ℚ} (hz : as[0]? = some 0) (hi : as.Pairwise (· < ·)) (hl : ∀ a ∈ as, a < 2 * PI_CONST) : HeadingSet as.length (as ++ [2 * PI_CONST]) := by
  have hp : 0 < as.length := (List.getElem?_eq_some_iff.mp hz).1
  refine ⟨hp, by simp, ?_, by simp, ?_⟩
  · rw [List.getElem?_append_left hp]; exact hz
  · rw [List.pairwise_append]
    exact ⟨hi, by simp, fun a ha b hb => by rw [List.mem_singleton] at hb; rw [hb]; exact hl a ha⟩

/-- **C187d** With a list of headings, the cost of a primitive before the multiplier is the smallest whole number of milliseconds in which the robot can both drive the length of the primitive
at the nominal velocity and turn by its angle at the nominal rate. -/
theorem cost_least_set (dirs : List ℚ) {vel tt : ℚ} (hv : 0 < vel) (ht : 0 ≤ tt) (r : RawPrim) (n : ℤ) :
    baseCostSet T dirs vel tt r ≤ n ↔ 1000 * linearDist r.pts ≤ n * (vel : ℝ) ∧ 1000 * (angularDistSet T dirs r * tt) ≤ n * (PI_CONST / 4) :=
  ceil_least (linearDist_nonneg r.pts) hv ht n

/-- **C187d** ... where the angle is the smallest rotation between the two headings of the list. -/
theorem angle_least_set (H : HeadingSet T dirs) {r : RawPrim} (hT : T ≤ 128) {i j : Nat} (hi : r.startTheta = i) (hj : r.endTheta = j) (hi' : i < T) (hj' : j < T) :
    ∃ a b, dirs[i]? = some a ∧ dirs[j]? = some b ∧ Rotation b a (angularDistSet T dirs r) := by
  obtain ⟨-, ha⟩ := angle_defined H hi'
  obtain ⟨-, hb⟩ := angle_defined H hj'
  refine ⟨_, _, ha, hb, ?_⟩
  obtain ⟨h1, -, h3, h4⟩ := AngleProps.minUnsignedAngleDiff_spec (angleOf T dirs j) (angleOf T dirs i)
  have e1 : toChar r.endTheta = j := by rw [hj]; exact XCfg.toChar_id (by omega) (by omega)
  have e2 : toChar r.startTheta = i := by rw [hi]; exact XCfg.toChar_id (by omega) (by omega)
  unfold angularDistSet
  rw [e1, e2, abs_of_nonneg h1]
  exact ⟨h3, h4⟩

theorem base_nonneg_set (dirs : List ℚ) {vel tt : ℚ} (hv : 0 < vel) (ht : 0 ≤ tt) (r : RawPrim) : 0 ≤ baseCostSet T dirs vel tt r := by
  have hvr : (0 : ℝ) < (vel : ℝ) := by exact_mod_cast hv
  have h := ((cost_least_set (T := T) dirs hv ht r (baseCostSet T dirs vel tt r)).mp (le_refl _)).1
  have hl := linearDist_nonneg r.pts
  by_contra hneg
  have : ((baseCostSet T dirs vel tt r : ℤ) : ℝ) < 0 := by exact_mod_cast not_le.mp hneg
  have := mul_neg_of_neg_of_pos this hvr
  linarith

/-- **C187d** The cost of the primitive is this number times its multiplier. -/
theorem cost_mult_set (dirs : List ℚ) {vel tt : ℚ} (hv : 0 < vel) (ht : 0 ≤ tt) (r : RawPrim) :
    ((mkPrimSet T dirs vel tt r).cost : ℤ) = r.mult * baseCostSet T dirs vel tt r := by
  have h0 := base_nonneg_set (T := T) dirs hv ht r
  unfold mkPrimSet
  dsimp only
  rw [Int.toNat_of_nonneg (mul_nonneg h0 (by omega))]
  ring

theorem cost_ge_set (dirs : List ℚ) {vel tt : ℚ} (hv : 0 < vel) (ht : 0 ≤ tt) {r : RawPrim} (hm : 1 ≤ r.mult) :
    baseCostSet T dirs vel tt r ≤ ((mkPrimSet T dirs vel tt r).cost : ℤ) := by
  have h0 := base_nonneg_set (T := T) dirs hv ht r
  rw [cost_mult_set dirs hv ht]
  have h1 : (1 : ℤ) ≤ r.mult := by exact_mod_cast hm
  have : 1 * baseCostSet T dirs vel tt r ≤ r.mult * baseCostSet T dirs vel tt r := mul_le_mul_of_nonneg_right h1 h0
  linarith

/-- **C187d** Driving time: the cost of a primitive is at least the time its length takes at the nominal velocity. -/
theorem cost_covers_length_set (dirs : List ℚ) {vel tt : ℚ} (hv : 0 < vel) (ht : 0 ≤ tt) {r : RawPrim} (hm : 1 ≤ r.mult) :
    1000 * linearDist r.pts ≤ (mkPrimSet T dirs vel tt r).cost * (vel : ℝ) := by
  have := ((cost_least_set dirs hv ht r _).mp (cost_ge_set (T := T) dirs hv ht hm)).1
  simpa using this

/-- **C187d** The costs satisfy what C56 – C58 assume of them (`NotTooFast`), if the primitives begin and end at the centres of their cells. -/
theorem not_too_fast_set {s : Setup} {vel tt : ℚ} (hv : 0 < vel) (ht : 0 ≤ tt) {raws : List RawPrim} (hs : s.prims = raws.map (mkPrimSet s.T dirs vel tt))
    (hr : ∀ r ∈ raws, RawExact s.cs r ∧ 1 ≤ r.mult) : NotTooFast s vel :=
  not_too_fast_of hs (fun r hr' => ⟨(hr r hr').1, rfl, rfl, cost_covers_length_set dirs hv ht (hr r hr').2⟩)

/-- **C187d** The cost of a path is at least the time the straight line between the centres of its end cells takes at the nominal velocity. -/
theorem path_cost_covers_set {s : Setup} {vel tt : ℚ} (hv : 0 < vel) (ht : 0 ≤ tt) {raws : List RawPrim} (hs : s.prims = raws.map (mkPrimSet s.T dirs vel tt))
    (hr : ∀ r ∈ raws, RawExact s.cs r ∧ 1 ≤ r.mult) {grid : Int → Int → Nat} {ks : List XKey} {n : Nat} {p q : XKey} (h : LPath s grid ks n) (hp : ks.head? = some p)
    (hq : ks.getLast? = some q) :
    1000 * Real.sqrt ((((centreOf s q).1 - (centreOf s p).1) * ((centreOf s q).1 - (centreOf s p).1) +
      ((centreOf s q).2 - (centreOf s p).2) * ((centreOf s q).2 - (centreOf s p).2) : ℚ) : ℝ) ≤ n * (vel : ℝ) :=
  path_covers_of hv hs (fun r hr' => ⟨(hr r hr').1, rfl, rfl, cost_covers_length_set dirs hv ht (hr r hr').2⟩) h hp hq

end Sbpl.XAngProps
