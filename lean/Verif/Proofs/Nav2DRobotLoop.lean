import Verif.Proofs.Nav2DRobot
/-!
# One pass of the robot's loop, and the loop
-/

namespace Sbpl.Robot
open Sbpl GridSpec GraphSpec PlannerSpec Nav2DProps ARA

/-- what holds at the head of the main loop -/
structure RInv (T : NavTask) (num : Int × Int → Nat) (den : Nat → Option (Int × Int)) (D B : Nat) (r : Robot) : Prop where
  good : Good r.ara
  fwd : r.ara.fwd = false
  D : r.ara.D = D
  start : r.ara.start = some (num T.goal)
  goal : r.ara.goal = some (num r.pos)
  env : r.ara.env = navPEnv (envCfg T r.map) num den
  eps : EpsBd r.ara B
  pos : InMap T.W T.H r.pos.1 r.pos.2
  mapOk : ∀ x y, r.map x y = 0 ∨ r.map x y = T.truth x y
  acc : r.ara.bReinit = false → r.ara.acc (num r.pos)
  fin : r.ara.bReinit = false → r.ara.g (num r.pos) < INF

/-- the measure: wrong cells of the map first, then the planner's cost of the robot's cell -/
def measure (T : NavTask) (num : Int × Int → Nat) (r : Robot) : Nat :=
  unknown T r.map * (INF + 1) + (if r.ara.bReinit then INF else r.ara.g (num r.pos))

variable {T : NavTask} {num : Int × Int → Nat} {den : Nat → Option (Int × Int)} {D B : Nat}

theorem look_spec (N : Numbering T.W T.H num den) {r : Robot} (i : RInv T num den D B r) :
    RInv T num den D B (r.look T num den) ∧ (r.look T num den).pos = r.pos ∧
    (∀ x y, InMap T.W T.H x y → -2 ≤ x - r.pos.1 → x - r.pos.1 ≤ 2 → -2 ≤ y - r.pos.2 → y - r.pos.2 ≤ 2 →
      (r.look T num den).map x y = T.truth x y) ∧
    measure T num (r.look T num den) ≤ measure T num r := by
  obtain ⟨f1, f2, f3, f4, f5⟩ := foldl_spec T r.pos offsets (r.map, false)
  unfold look sense
  generalize offsets.foldl (senseCell T r.pos) (r.map, false) = s at *
  have mapOk : ∀ x y, s.1 x y = 0 ∨ s.1 x y = T.truth x y := by
    intro x y
    rcases f1 x y with e | e
    · rw [e]; exact i.mapOk x y
    · exact .inr e
  have near : ∀ x y, InMap T.W T.H x y → -2 ≤ x - r.pos.1 → x - r.pos.1 ≤ 2 → -2 ≤ y - r.pos.2 → y - r.pos.2 ≤ 2 →
      s.1 x y = T.truth x y := by
    intro x y hin h1 h2 h3 h4
    have := f3 (x - r.pos.1, y - r.pos.2) (mem_offsets ⟨h1, h2, h3, h4⟩)
    simp only [show r.pos.1 + (x - r.pos.1) = x by omega, show r.pos.2 + (y - r.pos.2) = y by omega] at this
    exact this hin
  by_cases hc : s.2 = true
  · simp only [hc, if_true]
    refine ⟨⟨⟨?_, ?_⟩, i.fwd, i.D, i.start, i.goal, rfl, ⟨i.eps.eps, i.eps.ini, i.eps.fin⟩, i.pos, mapOk, ?_, ?_⟩,
      trivial, near, ?_⟩
    · have g := step_good (.costsChanged (navPEnv (envCfg T s.1) num den)) i.good
        (by show EnvOk _; exact nav_envOk (is16 := true) N rfl) rfl
      exact g.api
    · exact nav_envOk (is16 := true) N rfl
    · intro h; cases h
    · intro h; cases h
    · rcases f5 hc with h | ⟨x, y, h1, h2, h3⟩
      · cases h
      · have u := unknown_lt f1 h1 h2 h3
        unfold measure
        simp only [costsChanged, if_true]
        have : (unknown T s.1 + 1) * (INF + 1) ≤ unknown T r.map * (INF + 1) := Nat.mul_le_mul_right _ u
        rw [Nat.succ_mul] at this
        omega
  · have e := f4 (by simpa using hc)
    subst e
    simp only [if_neg hc]
    exact ⟨i, trivial, near, Nat.le_refl _⟩

/-- the moves of one pass are real, its only errors are those of a full planner and of a planner without a path, and the
measure decreases -/
theorem cycle_spec (N : Numbering T.W T.H num den) (hgoal : InMap T.W T.H T.goal.1 T.goal.2) {r : Robot}
    (i : RInv T num den D B r) (hne : r.pos ≠ T.goal) {bs : List Nat} (hbs : bs ≠ []) :
    match cycle T num den bs r with
    | .ok r' => RInv T num den D B r' ∧ (∃ c, Edge T.W T.H T.truth T.obs true r.pos r'.pos c) ∧
        measure T num r' < measure T num r
    | .error (.noPlan bs' tr) => bs' = bs ∧ (∀ t ∈ tr, t.length ≤ T.W.toNat * T.H.toNat) ∧ (NoTimeout bs tr → 0 < D → D ≤ B → T.truth r.pos.1 r.pos.2 < T.obs → ∀ n,
        GridWalk T.W T.H T.truth T.obs true r.pos T.goal n → 1000 * D * INF ≤ (1001 * B + D) * n)
    | .error (.planner e) => Cap e
    | .error .intoObstacle => False
    | .error .badId => False := by
  obtain ⟨j, ep, near, ml⟩ := look_spec N i
  unfold cycle
  simp only
  generalize r.look T num den = r1 at *
  rw [← ep] at hne near ⊢
  have hnum : num T.goal ≠ num r1.pos := by
    intro e
    have h1 := N.left _ j.pos
    have h2 := N.left _ hgoal
    rw [e, h1] at h2
    exact hne (by simpa using h2)
  have dpos := N.left _ j.pos
  have dgoal := N.left _ hgoal
  have sp := replan_spec bs j.good.api j.good.env j.start j.goal (.inl hbs)
  cases e : r1.ara.replan bs with
  | error x =>
    rw [e] at sp
    exact sp
  | ok rr =>
    obtain ⟨a, res⟩ := rr
    rw [e] at sp
    by_cases hf : res.found = true
    · obtain ⟨q, rest, hp, s1, s2, s3, s4, s5⟩ := replan_step j.good.api j.good.env j.start j.goal j.fwd hbs hnum e hf
      have pth := sp.path hf
      obtain ⟨_, _, n, pc, _, _⟩ := pth
      rw [hp] at pc
      have hm : ∃ m, (q, m) ∈ (navPEnv (envCfg T r1.map) num den).succs (num T.goal) (num r1.pos) := by
        rw [j.env, j.fwd] at pc
        simp only [envGoal, Bool.false_eq_true, if_false] at pc
        cases pc with
        | cons h _ => exact ⟨_, h⟩
      obtain ⟨m, hm⟩ := hm
      obtain ⟨_, p', q', hp', hq', he⟩ := (succs_edge (is16 := true) (c := envCfg T r1.map) N rfl).mp hm
      rw [dpos] at hp'
      cases hp'
      have he : Edge T.W T.H r1.map T.obs true r1.pos q' m := he
      have he' : Edge T.W T.H T.truth T.obs true r1.pos q' m :=
        edge_local (fun x y hin h1 h2 h3 h4 => (near x y hin h1 h2 h3 h4).symm) he
      have et := edge_target he'
      have hqn := (N.right _ _ hq').1
      simp only [hf, if_true, hp, move, hq']
      rw [if_neg (by omega)]
      have fwdA : a.fwd = false := sp.fwd.trans j.fwd
      have g1 : Good a := ⟨sp.api, by rw [sp.env]; exact j.good.env⟩
      have ss : a.setStart q = a.setSearchGoal q := by
        unfold ARA.setStart; rw [if_neg (by rw [fwdA]; simp)]
      have fields := setSearchGoal_fields a q
      have calls : (a.setSearchGoal q).bReinit = a.bReinit ∧ (a.setSearchGoal q).g = a.g ∧
          ((a.setSearchGoal q).acc q ↔ a.acc q) := by
        unfold setSearchGoal; split
        · exact ⟨rfl, rfl, Iff.rfl⟩
        · exact ⟨rfl, rfl, Iff.rfl⟩
      have g2 : Good (a.setStart q) := step_good (.setStart q) g1 trivial rfl
      have eb1 : EpsBd a B := ⟨sp.epsB B j.eps.eps j.eps.ini j.eps.fin, by rw [sp.initEps]; exact j.eps.ini,
        by rw [sp.finalEps]; exact j.eps.fin⟩
      have eb2 : EpsBd (a.setStart q) B := step_epsBd (.setStart q) g1 trivial rfl (by intro _ _ _ _ h; cases h) eb1
      rw [ss] at g2 eb2 ⊢
      refine ⟨⟨g2, fields.1.trans fwdA, ?_, ?_, ?_, ?_, eb2, et.1, j.mapOk, ?_, ?_⟩, ⟨m, he'⟩, ?_⟩
      · exact fields.2.1.trans (sp.D.trans j.D)
      · exact fields.2.2.1.trans (sp.start.trans j.start)
      · show (a.setSearchGoal q).goal = some (num q')
        rw [hqn]; exact fields.2.2.2.1
      · exact fields.2.2.2.2.trans (sp.env.trans j.env)
      · intro _
        show (a.setSearchGoal q).acc (num q')
        rw [hqn]; exact calls.2.2.mpr s2
      · intro _
        show (a.setSearchGoal q).g (num q') < INF
        rw [hqn, calls.2.1]; omega
      · refine Nat.lt_of_lt_of_le ?_ ml
        unfold measure
        simp only
        rw [hqn, calls.1, calls.2.1, s1]
        simp only [Bool.false_eq_true, if_false]
        by_cases hb : r1.ara.bReinit = true
        · rw [if_pos hb]; omega
        · have hb' : r1.ara.bReinit = false := by simpa using hb
          rw [if_neg hb]
          have := s5 hb' (j.acc hb')
          omega
    · simp only [if_neg hf]
      refine ⟨trivial, ?_, ?_⟩
      · intro t ht
        have hb : r1.ara.base = (navPEnv (envCfg T r1.map) num den).preds (num T.goal) := by
          funext s; simp only [base, j.fwd, j.start, j.env]; rfl
        rw [← length_cells, ← List.length_map (f := num)]
        refine nodup_length_le (sp.nodup t ht) ?_
        intro s hs
        obtain ⟨c, w⟩ := sp.reach t ht s hs
        rw [hb] at w
        cases w with
        | nil => exact List.mem_map_of_mem (mem_cells hgoal)
        | snoc _ hm =>
          obtain ⟨p, q, _, hp, _, _⟩ := (preds_mem (c := envCfg T r1.map) N).mp hm
          have := N.right _ _ hp
          rw [← this.1]
          exact List.mem_map_of_mem (mem_cells this.2)
      intro hnt hD hDB hfree n w
      have hmap : ∀ x y, r1.map x y ≤ T.truth x y := by
        intro x y
        rcases j.mapOk x y with e | e <;> rw [e]
        exact Nat.zero_le _
      obtain ⟨n', hn, w'⟩ := gridWalk_mono hmap w
      obtain ⟨n2, hn2, w2⟩ := walk_of_gridWalk (c := envCfg T r1.map) (is16 := true) N rfl dpos dgoal w'
      have hfree' : r1.map r1.pos.1 r1.pos.2 < T.obs := Nat.lt_of_le_of_lt (hmap _ _) hfree
      have hP : PredsOk (navPEnv (envCfg T r1.map) num den) (num r1.pos) :=
        nav_predsOk (is16 := true) N rfl dpos hfree'
      have wb : Walk r1.ara.base (num T.goal) (num r1.pos) n2 := by
        apply walk_base j.good.env j.start j.goal
        · intro _; rw [j.env, j.fwd]; exact hP
        · rw [j.env, j.fwd]; exact w2
      have u : ∀ e, e ≤ B → r1.ara.heur (num r1.pos) (num r1.pos) = 0 ∧
          UpTo r1.ara.base (r1.ara.heur (num r1.pos)) D e (1001 * B + D) (1000 * D) := by
        intro e he
        have h := upTo_base (gl := num r1.pos) j.good.env (D := D) (e := e) (N := 1001 * e + D) (M := 1000 * D)
          (by rw [j.env, j.fwd]; exact nav_heur (is16 := true) N rfl hD false) j.start
        refine ⟨h.1, fun s t c hm => Nat.le_trans (h.2 s t c hm) ?_⟩
        have : (1001 * e + D) * c ≤ (1001 * B + D) * c := Nat.mul_le_mul_right _ (by omega)
        omega
      have fin := sp.nopath (u 0 (Nat.zero_le _)).1 hnt hbs (by simpa using hf) ⟨1001 * B + D, 1000 * D⟩ B n2
        (by show 1000 * D ≤ 1001 * B + D; omega) (fun e he => by rw [j.D]; exact (u e he).2) j.eps.eps j.eps.ini j.eps.fin wb
      refine Nat.le_trans fin (Nat.mul_le_mul_left _ (by omega))

theorem init_inv (N : Numbering T.W T.H num den) (hs : InMap T.W T.H T.start.1 T.start.2) {ie fe de : Nat} {first : Bool}
    (hie : ie ≤ B) (hfe : fe ≤ B) : RInv T num den D B (init T num den D ie fe de first) := by
  have g0 : Good (ARA.init (navPEnv (envCfg T (fun _ _ => 0)) num den) false D ie fe de first) :=
    ⟨init_api .., nav_envOk (is16 := true) N rfl⟩
  have g1 := step_good (.setStart (num T.start)) g0 trivial rfl
  have g2 := step_good (.setGoal (num T.goal)) g1 trivial rfl
  refine ⟨g2, rfl, rfl, rfl, rfl, rfl, ⟨hie, hie, hfe⟩, hs, fun _ _ => .inl rfl, ?_, ?_⟩
  · intro h; cases h
  · intro h; cases h

/-- the whole loop -/
theorem run_spec (N : Numbering T.W T.H num den) (hgoal : InMap T.W T.H T.goal.1 T.goal.2) :
    ∀ (bss : List (List Nat)) (r : Robot), (∀ bs ∈ bss, bs ≠ []) → RInv T num den D B r →
      Trail T.W T.H T.truth T.obs (run T num den bss r).1 ∧
      (run T num den bss r).1.head? = some r.pos ∧
      match (run T num den bss r).2 with
      | .arrived => (run T num den bss r).1.getLast? = some T.goal
      | .going => bss.length ≤ measure T num r
      | .stopped (.noPlan bs tr) => bs ∈ bss ∧ (∀ t ∈ tr, t.length ≤ T.W.toNat * T.H.toNat) ∧ ∃ p, (run T num den bss r).1.getLast? = some p ∧
          (NoTimeout bs tr → 0 < D → D ≤ B → T.truth r.pos.1 r.pos.2 < T.obs → ∀ n,
            GridWalk T.W T.H T.truth T.obs true p T.goal n → 1000 * D * INF ≤ (1001 * B + D) * n)
      | .stopped (.planner e) => Cap e
      | .stopped .intoObstacle => False
      | .stopped .badId => False
  | [], r, _, _ => by
    unfold run
    refine ⟨.one _, rfl, ?_⟩
    by_cases h : r.pos = T.goal
    · simp [h]
    · simp [h]
  | bs :: bss, r, hb, i => by
    unfold run
    by_cases h : r.pos = T.goal
    · rw [if_pos h]
      refine ⟨.one _, rfl, ?_⟩
      simp [h]
    · rw [if_neg h]
      have c := cycle_spec N hgoal i h (hb bs (by simp))
      cases e : cycle T num den bs r with
      | error x =>
        rw [e] at c
        refine ⟨.one _, rfl, ?_⟩
        cases x with
        | noPlan bs' tr =>
          obtain ⟨rfl, c1, c⟩ := c
          exact ⟨by simp, c1, r.pos, rfl, c⟩
        | planner _ => exact c
        | intoObstacle => exact c
        | badId => exact c
      | ok r' =>
        rw [e] at c
        obtain ⟨i', ⟨m, he⟩, hm⟩ := c
        obtain ⟨t1, t2, t3⟩ := run_spec N hgoal bss r' (fun b hb' => hb b (by simp [hb'])) i'
        simp only
        cases e2 : run T num den bss r' with
        | mk l o =>
          rw [e2] at t1 t2 t3
          simp only at t1 t2 t3 ⊢
          cases l with
          | nil => cases t2
          | cons a l =>
            simp only [List.head?_cons, Option.some.injEq] at t2
            subst t2
            refine ⟨.step m he t1, rfl, ?_⟩
            cases o with
            | arrived => simp only at t3 ⊢; rw [List.getLast?_cons_cons]; exact t3
            | going => simp only [List.length_cons] at t3 ⊢; omega
            | stopped x =>
              cases x with
              | noPlan bs' tr =>
                obtain ⟨h1, h4, p, h2, h3⟩ := t3
                refine ⟨by simp [h1], h4, p, by rw [List.getLast?_cons_cons]; exact h2, ?_⟩
                intro a1 a2 a3 _
                exact h3 a1 a2 a3 (edge_target he).2
              | planner _ => exact t3
              | intoObstacle => exact t3
              | badId => exact t3

end Sbpl.Robot
