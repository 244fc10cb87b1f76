import Verif.Props.XYTAnglesCost
import Verif.Props.XYTInit
/-!
# Conversion between poses and states of a lattice with a list of headings
-/

namespace Sbpl.XAngProps
open Sbpl XEnv XSpec XAngSpec XYTPrimProps XInit

section
variable {s : Setup} {dirs : List ℚ} {ops : List Op} {st : XEnv}

theorem normalize_list (H : HeadingSet s.T dirs) {i : Nat} (hi : i < s.T) {a : ℚ} (ha : dirs[i]? = some a) : Utils.normalizeAngle a = a ∧ 0 ≤ a ∧ a < 2 * Utils.PI_CONST := by
  have a0 := (dirs_range H ha).1
  have a1 := dirs_lt H ha H.full hi
  refine ⟨?_, a0, a1⟩
  unfold Utils.normalizeAngle
  have : ¬ |a| > 2 * Utils.PI_CONST := by rw [abs_of_nonneg a0]; exact not_lt.mpr a1.le
  simp only [if_neg this]
  rw [if_neg (not_lt.mpr a0)]

/-- **C187e** With a list of headings PoseDiscToCont takes the coordinates of a state to the centre of its cell and the angle of its heading, and returns true; PoseContToDisc takes this pose back
to the same state and returns true. -/
theorem disc_pose_set (h : HistSet s dirs ops st) (hcs : 0 < s.cs) {k : XKey} (hk : InRange s k) :
    ∃ a, dirs[k.2.2.toNat]? = some a ∧ poseToContSet dirs st.cfg k.1 k.2.1 k.2.2 = .ok (((centreOf s k).1, (centreOf s k).2, a), true) ∧
      poseToDiscSet dirs st.cfg (centreOf s k).1 (centreOf s k).2 a = .ok (k, true) := by
  obtain ⟨_, hh, -, -⟩ := angles_hist h
  have S := (hist_inv hh).1.stc
  have H := h.2.1
  obtain ⟨x, y, t⟩ := k
  obtain ⟨⟨x0, xW, y0, yH⟩, t0, tT⟩ := hk
  obtain ⟨i, rfl⟩ := Int.eq_ofNat_of_zero_le t0
  have hi : i < s.T := by simp only at tT; omega
  obtain ⟨a, e1, e2, e3⟩ := headings_roundtrip H hi
  obtain ⟨n1, n2, n3⟩ := normalize_list H hi e2
  have pp := AngleProps.pi_pos
  have cx : (centreOf s (x, y, (i : Int))).1 = Utils.discXY2Cont x s.cs := by
    unfold centreOf Utils.discXY2Cont; ring
  have cy : (centreOf s (x, y, (i : Int))).2 = Utils.discXY2Cont y s.cs := by
    unfold centreOf Utils.discXY2Cont; ring
  refine ⟨a, by simpa using e2, ?_, ?_⟩
  · unfold poseToContSet
    rw [S.T, e1]
    simp only
    rw [S.cs, n1, S.W, S.H, cx, cy, decide_eq_true ⟨t0, tT, x0, xW, y0, yH⟩]
  · unfold poseToDiscSet
    rw [S.T, e3]
    simp only
    rw [S.cs, S.W, S.H, cx, cy, UtilsProps.disc_cont_disc _ hcs, UtilsProps.disc_cont_disc _ hcs, decide_eq_true ⟨by linarith, n3.le, x0, xW, y0, yH⟩]

/-- **C187e** With a list of headings PoseContToDisc returns true exactly for positions in the map with an angle of at most a full turn in absolute value; it then returns the cell of the map that
contains the position and a heading of the list that is nearest to the angle - without exception, unlike with uniform headings (C171). -/
theorem cont_pose_set (h : HistSet s dirs ops st) (hcs : 0 < s.cs) (x y th : ℚ) :
    ∃ (ix iy : Int) (i : Nat) (b : Bool), poseToDiscSet dirs st.cfg x y th = .ok ((ix, iy, (i : Int)), b) ∧ Nearest s.T dirs th i ∧
      (b = true ↔ (0 ≤ x ∧ x < s.W * s.cs) ∧ (0 ≤ y ∧ y < s.H * s.cs) ∧ |th| ≤ 2 * Utils.PI_CONST) ∧
      (b = true → InRange s (ix, iy, (i : Int)) ∧ UtilsSpec.InCell x s.cs ix ∧ UtilsSpec.InCell y s.cs iy) := by
  obtain ⟨_, hh, -, -⟩ := angles_hist h
  have S := (hist_inv hh).1.stc
  have H := h.2.1
  obtain ⟨i, e, n⟩ := heading_ok H th
  obtain ⟨k1, k2⟩ := XInitProps.cont_pose S hcs x y th
  refine ⟨(poseToDisc st.cfg x y th).1.1, (poseToDisc st.cfg x y th).1.2.1, i, (poseToDisc st.cfg x y th).2, ?_, n, k1, fun hb => ?_⟩
  · unfold poseToDiscSet
    rw [S.T, e]
    rfl
  · obtain ⟨m, c1, c2⟩ := k2 hb
    exact ⟨⟨m, by simp, by have := n.1; simp only; omega⟩, c1, c2⟩

end
end Sbpl.XAngProps
