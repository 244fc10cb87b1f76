import Verif.Proofs.Nav2DRobotLoop
/-!
# A robot that plans with ARA*, moves one step, senses and plans again (C200–C204)

`planandnavigate2d` of src/test/main.cpp: for every true map, every numbering of its cells, every eps parameters and every
sequence of time limits (one per pass, each allowing at least one pass of the search loop).
-/

namespace Sbpl.RobotProps
open Sbpl GridSpec PlannerSpec Nav2DProps Robot

variable {T : NavTask} {num : Int × Int → Nat} {den : Nat → Option (Int × Int)} {D ie fe de : Nat} {first : Bool}
  {bss : List (List Nat)} {l : List (Int × Int)} {o : Outcome}

/-- **C200** The robot only ever makes moves that are passable in the true map, from the start on, although it plans on what it
has seen; when the program ends normally it stands on the goal. -/
theorem robot_moves_safe (N : Numbering T.W T.H num den) (hs : InMap T.W T.H T.start.1 T.start.2)
    (hg : InMap T.W T.H T.goal.1 T.goal.2) (hb : ∀ bs ∈ bss, bs ≠ [])
    (h : run T num den bss (init T num den D ie fe de first) = (l, o)) :
    l.head? = some T.start ∧ Trail T.W T.H T.truth T.obs l ∧ (o = .arrived → l.getLast? = some T.goal) := by
  have f := run_spec N hg bss (init T num den D ie fe de first) hb
    (init_inv N hs (Nat.le_max_left ie fe) (Nat.le_max_right ie fe))
  rw [h] at f
  obtain ⟨h1, h2, h3⟩ := f
  refine ⟨h2, h1, ?_⟩
  rintro rfl
  exact h3

/-- **C201** The exception "robot is commanded to move into an obstacle" is never raised, and no state ID is unknown: the loop
can only be left early because there is no plan, or because OPEN or the INCONS list is full. -/
theorem robot_exceptions (N : Numbering T.W T.H num den) (hs : InMap T.W T.H T.start.1 T.start.2)
    (hg : InMap T.W T.H T.goal.1 T.goal.2) (hb : ∀ bs ∈ bss, bs ≠ [])
    (h : run T num den bss (init T num den D ie fe de first) = (l, o)) {e : NavErr} (he : o = .stopped e) :
    (∃ bs tr, e = .noPlan bs tr) ∨ e = .planner (.heap .full) ∨ e = .planner (.list .full) := by
  have f := run_spec N hg bss (init T num den D ie fe de first) hb
    (init_inv N hs (Nat.le_max_left ie fe) (Nat.le_max_right ie fe))
  rw [h] at f
  obtain ⟨_, _, h3⟩ := f
  subst he
  cases e with
  | noPlan bs tr => exact .inl ⟨bs, tr, rfl⟩
  | planner e =>
    rcases h3 with rfl | rfl
    · exact .inr (.inl rfl)
    · exact .inr (.inr rfl)
  | intoObstacle => exact h3.elim
  | badId => exact h3.elim

/-- **C202** If the robot gives up at cell `p` although the clock interrupted no pass of that search, every way of the TRUE map
from `p` to the goal costs at least about INFINITECOST / eps (the start cell is not an obstacle, `B / D ≥ 1` bounds the eps
values). -/
theorem robot_gives_up_rightly (N : Numbering T.W T.H num den) (hs : InMap T.W T.H T.start.1 T.start.2)
    (hg : InMap T.W T.H T.goal.1 T.goal.2) (hb : ∀ bs ∈ bss, bs ≠ [])
    (h : run T num den bss (init T num den D ie fe de first) = (l, o)) {bs : List Nat} {tr : List (List Nat)}
    (he : o = .stopped (.noPlan bs tr)) {B : Nat} (hie : ie ≤ B) (hfe : fe ≤ B) (hD : 0 < D) (hDB : D ≤ B)
    (hfree : T.truth T.start.1 T.start.2 < T.obs) (hnt : NoTimeout bs tr) :
    ∃ p, l.getLast? = some p ∧ ∀ n, GridWalk T.W T.H T.truth T.obs true p T.goal n →
      1000 * D * INFINITECOST ≤ (1001 * B + D) * n := by
  have f := run_spec N hg bss (init T num den D ie fe de first) hb (init_inv N hs hie hfe)
  rw [h] at f
  obtain ⟨_, _, h3⟩ := f
  subst he
  obtain ⟨_, _, p, h4, h5⟩ := h3
  exact ⟨p, h4, h5 hnt hD hDB hfree⟩

/-- **C203** The robot does not wander forever: whatever the time limits, after at most
`(W * H + 1) * (INFINITECOST + 1)` passes it has arrived or the loop has been left by an exception. -/
theorem robot_terminates (N : Numbering T.W T.H num den) (hs : InMap T.W T.H T.start.1 T.start.2)
    (hg : InMap T.W T.H T.goal.1 T.goal.2) (hb : ∀ bs ∈ bss, bs ≠ [])
    (h : run T num den bss (init T num den D ie fe de first) = (l, o))
    (hlong : (T.W.toNat * T.H.toNat + 1) * (INFINITECOST + 1) ≤ bss.length) : o ≠ .going := by
  have f := run_spec N hg bss (init T num den D ie fe de first) hb
    (init_inv N hs (Nat.le_max_left ie fe) (Nat.le_max_right ie fe))
  rw [h] at f
  obtain ⟨_, _, h3⟩ := f
  rintro rfl
  have h3 : bss.length ≤ Robot.measure T num (init T num den D ie fe de first) := h3
  have hm : Robot.measure T num (init T num den D ie fe de first) ≤ T.W.toNat * T.H.toNat * (INFINITECOST + 1) + INFINITECOST := by
    unfold Robot.measure
    refine Nat.add_le_add (Nat.mul_le_mul_right _ (unknown_le _ _)) (Nat.le_of_eq ?_)
    rfl
  rw [Nat.succ_mul] at hlong
  omega

/-- **C204** On a map that is not too large for the integer costs, the robot reaches every goal that can be reached: if some way
of the true map leads from the start (not an obstacle) to the goal, every search may take more than `W * H` expansions, and
the loop may take enough passes, then it arrives (or OPEN or the INCONS list is full). -/
theorem robot_arrives (N : Numbering T.W T.H num den) (hs : InMap T.W T.H T.start.1 T.start.2)
    (hg : InMap T.W T.H T.goal.1 T.goal.2)
    (h : run T num den bss (init T num den D ie fe de first) = (l, o))
    {B : Nat} (hie : ie ≤ B) (hfe : fe ≤ B) (hD : 0 < D) (hDB : D ≤ B)
    (hsize : (1001 * B + D) * (T.W.toNat * T.H.toNat * (T.obs * 2236)) < 1000 * D * INFINITECOST)
    (hfree : T.truth T.start.1 T.start.2 < T.obs)
    {n : Nat} (w : GridWalk T.W T.H T.truth T.obs true T.start T.goal n)
    (hb : ∀ bs ∈ bss, bs ≠ [] ∧ ∀ b ∈ bs, T.W.toNat * T.H.toNat < b)
    (hlong : (T.W.toNat * T.H.toNat + 1) * (INFINITECOST + 1) ≤ bss.length) :
    (o = .arrived ∧ l.getLast? = some T.goal) ∨ o = .stopped (.planner (.heap .full)) ∨
      o = .stopped (.planner (.list .full)) := by
  have hb' : ∀ bs ∈ bss, bs ≠ [] := fun bs h => (hb bs h).1
  obtain ⟨a1, a2, a3⟩ := robot_moves_safe N hs hg hb' h
  cases o with
  | arrived => exact .inl ⟨rfl, a3 rfl⟩
  | going => exact absurd rfl (robot_terminates N hs hg hb' h hlong)
  | stopped e =>
    rcases robot_exceptions N hs hg hb' h rfl with ⟨bs, tr, rfl⟩ | rfl | rfl
    · exfalso
      have f := run_spec N hg bss (init T num den D ie fe de first) hb' (init_inv N hs hie hfe)
      rw [h] at f
      obtain ⟨_, _, h3⟩ := f
      obtain ⟨hmem, htr, p, hp, hno⟩ := h3
      have hnt : NoTimeout bs tr := ⟨_, htr, (hb bs hmem).2⟩
      obtain ⟨pin, m, back⟩ := trail_back l a2 a1 hp hs hfree
      obtain ⟨n', hn', w'⟩ := short_walk pin (gridWalk_append back w)
      have := hno hnt hD hDB hfree n' w'
      have h2 : (1001 * B + D) * n' ≤ (1001 * B + D) * (T.W.toNat * T.H.toNat * (T.obs * 2236)) :=
        Nat.mul_le_mul_left _ hn'
      have h3 : 1000 * D * INFINITECOST ≤ (1001 * B + D) * n' := this
      omega
    · exact .inr (.inl rfl)
    · exact .inr (.inr rfl)

end Sbpl.RobotProps
