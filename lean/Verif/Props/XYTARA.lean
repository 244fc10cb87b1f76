import Verif.Model.XYTPlan
import Verif.Spec.XYTPlan
import Verif.Props.XYTHeur
import Verif.Props.XYT
import Verif.Props.Nav2DARA
/-!
# ARA* on `EnvironmentNAVXYTHETALAT`, end to end (C58)
-/

namespace Sbpl.XYTARAProps
open Sbpl XSpec XEnv XCfg GraphSpec PlannerSpec XHeurProps XYTProps

variable {s : Setup} {c : XCfg} {num : XKey → Nat} {den : Nat → Option XKey} {hg hs : XKey → XKey → Int} {vel : ℚ}

theorem mem_acts (stc : Static s c) (ok : SetupOk s) {t : Int} (t0 : 0 ≤ t) (tT : t < s.T) {a : XAct} :
    a ∈ c.acts t ↔ ∃ m i, (primsOf s t)[i]? = some m ∧ a = mkAct s.cs s.foot i m := by
  rw [stc.acts]
  constructor
  · intro ha
    obtain ⟨m, h1, -, -, h2, -⟩ := mem_actsFor ok t0 tT ha
    exact ⟨m, _, h1, h2⟩
  · rintro ⟨m, i, h1, h2⟩
    rw [h2]; exact act_of_prim h1

theorem edge_inRange (stc : Static s c) (ok : SetupOk s) {m : MPrim} {p q : XKey} {n : Nat} (e : Edge s c.grid m p q n) : InRange s q := by
  have h := (succAct_iff stc ok (i := 0) e.mem e.heading).mpr e
  exact stc.inRange.mp (succAct_inRange stc _ _ _ h)

/-- the transitions of the environment, from a state, are its edges -/
theorem act_edge (stc : Static s c) (ok : SetupOk s) {p q : XKey} (hp : InRange s p) {n : Nat} :
    (∃ a ∈ c.acts p.2.2, c.succAct p a = some (q, n)) ↔ ∃ m, Edge s c.grid m p q n := by
  constructor
  · rintro ⟨a, ha, h⟩
    obtain ⟨m, i, h1, rfl⟩ := (mem_acts stc ok hp.2.1 hp.2.2).mp ha
    obtain ⟨h2, h3⟩ := primsOf_mem h1
    exact ⟨m, (succAct_iff stc ok h2 h3).mp h⟩
  · rintro ⟨m, e⟩
    have hm : m ∈ primsOf s p.2.2 := by
      unfold primsOf; rw [List.mem_filter, decide_eq_true_iff]; exact ⟨e.mem, e.heading⟩
    obtain ⟨i, hi, hmi⟩ := List.mem_iff_getElem.mp hm
    have hmi' : (primsOf s p.2.2)[i]? = some m := by rw [List.getElem?_eq_getElem hi, hmi]
    exact ⟨_, (mem_acts stc ok hp.2.1 hp.2.2).mpr ⟨m, i, hmi', rfl⟩, (succAct_iff stc ok e.mem e.heading).mpr e⟩

theorem succs_edge (stc : Static s c) (ok : SetupOk s) (N : XNumbering s num den) {gl i j n : Nat} :
    (j, n) ∈ (xytPEnv c num den hg hs).succs gl i ↔ i ≠ gl ∧ ∃ p q m, den i = some p ∧ den j = some q ∧ Edge s c.grid m p q n := by
  simp only [xytPEnv]
  by_cases hi : i = gl
  · simp [hi]
  · rw [if_neg hi]
    cases hp : den i with
    | none => simp
    | some p =>
      have hr := (N.right _ _ hp).2
      simp only
      rw [List.mem_filterMap]
      constructor
      · rintro ⟨a, ha, h⟩
        cases hs : c.succAct p a with
        | none => rw [hs] at h; cases h
        | some r =>
          rw [hs] at h
          simp only [Option.map_some, Option.some.injEq, Prod.mk.injEq] at h
          obtain ⟨rfl, rfl⟩ := h
          obtain ⟨m, e⟩ := (act_edge stc ok hr).mp ⟨a, ha, hs⟩
          exact ⟨hi, p, r.1, m, rfl, N.left _ (edge_inRange stc ok e), e⟩
      · rintro ⟨-, p', q, m, hp', hq, e⟩
        cases hp'
        obtain ⟨a, ha, h⟩ := (act_edge stc ok hr).mpr ⟨m, e⟩
        exact ⟨a, ha, by rw [h]; simp [(N.right _ _ hq).1]⟩

theorem preds_edge (stc : Static s c) (ok : SetupOk s) (N : XNumbering s num den) {gl i j n : Nat} :
    (i, n) ∈ (xytPEnv c num den hg hs).preds gl j ↔ ∃ p q m, den i = some p ∧ den j = some q ∧ Edge s c.grid m p q n := by
  simp only [xytPEnv]
  cases hq : den j with
  | none => simp
  | some q =>
    have hr := (N.right _ _ hq).2
    simp only
    rw [List.mem_filterMap]
    constructor
    · rintro ⟨a, ha, h⟩
      cases hs : c.predAct q a with
      | none => rw [hs] at h; cases h
      | some r =>
        rw [hs] at h
        simp only [Option.map_some, Option.some.injEq, Prod.mk.injEq] at h
        obtain ⟨rfl, rfl⟩ := h
        obtain ⟨u, u0, uT, hu, hsu, hn⟩ := (mem_preds stc ok).mp ha
        have hpa := (predAct_iff hn (p := r.1) (n := r.2)).mp hs
        rw [stc.T] at uT
        have eu : r.1.2.2 = u := by rw [hpa.1, hsu]
        have hin : InRange s r.1 := by
          refine ⟨?_, by rw [eu]; exact u0, by rw [eu]; exact uT⟩
          have h2 := hpa.2
          unfold succAct at h2
          split_ifs at h2 with k1 k2
          exact (stc.valid.mp (actionCost_valid k2).1).1
        obtain ⟨m, e⟩ := (act_edge stc ok hin).mp ⟨a, by rw [eu]; exact hu, hpa.2⟩
        exact ⟨r.1, q, m, N.left _ hin, rfl, e⟩
    · rintro ⟨p, q', m, hp, hq', e⟩
      cases hq'
      have hin := (N.right _ _ hp).2
      obtain ⟨a, ha, h⟩ := (act_edge stc ok hin).mpr ⟨m, e⟩
      have hst : a.startTheta = p.2.2 := by
        rw [stc.acts] at ha
        obtain ⟨m, -, -, -, -, hst, -⟩ := mem_actsFor ok hin.2.1 hin.2.2 ha
        exact hst
      have hn : Utils.normDiscTheta a.endTheta c.T = q.2.2 := by
        unfold succAct at h
        split_ifs at h
        simp only [Option.some.injEq, Prod.mk.injEq] at h
        rw [← h.1]; rfl
      have hpa := (predAct_iff hn (p := p) (n := n)).mpr ⟨hst.symm, h⟩
      exact ⟨a, (mem_preds stc ok).mpr ⟨p.2.2, hin.2.1, by rw [stc.T]; exact hin.2.2, ha, hst, hn⟩, by rw [hpa]; simp [(N.right _ _ hp).1]⟩

theorem edge_cost_ge {m0 : Nat} (hm : CostAtLeast s m0) {grid : Int → Int → Nat} {m : MPrim} {p q : XKey} {n : Nat} (e : Edge s grid m p q n) : m0 ≤ n := by
  obtain ⟨v, -, hc⟩ := e.cost
  rw [hc]
  exact Nat.le_trans (hm m e.mem) (Nat.le_mul_of_pos_right _ (by omega))

theorem xyt_envOk (stc : Static s c) (ok : SetupOk s) (N : XNumbering s num den) (hm : CostAtLeast s 1) : EnvOk (xytPEnv c num den hg hs) := by
  refine ⟨?_, ?_, ?_, ?_, ?_⟩
  · intro gl gl' i h1 h2; simp [xytPEnv, h1, h2]
  · intro gl i e h; simp [xytPEnv] at h
  · intro gl i j n h
    obtain ⟨_, p, q, m, _, _, e⟩ := (succs_edge stc ok N).mp h
    exact edge_cost_ge hm e
  · intro gl i j n h
    obtain ⟨p, q, m, _, _, e⟩ := (preds_edge (gl := gl) stc ok N).mp h
    exact edge_cost_ge hm e
  · intro gl i j n hne h
    exact (succs_edge stc ok N).mpr ⟨hne, (preds_edge stc ok N).mp h⟩

theorem xyt_predsOk (stc : Static s c) (ok : SetupOk s) (N : XNumbering s num den) (a : Nat) : PredsOk (xytPEnv c num den hg hs) a := by
  intro gl i j n m _ h
  obtain ⟨_, h⟩ := (succs_edge stc ok N).mp h
  exact (preds_edge stc ok N).mpr h

/-! ## Heuristics -/

/-- `h` is a table of heuristics computed by a 2D search from the cell of `o` with costs `grid`: what `goal_value` and `start_value` say of the environment -/
def HeurFrom (s : Setup) (vel : ℚ) (grid : Int → Int → Nat) (o : XKey) (h : XKey → Int) : Prop :=
  ∃ L, ∀ p, InRange s p → ∃ d e, h p = divVel (max d (e : Nat)) vel ∧ Known (map2D s grid) L (o.1, o.2.1) (p.1, p.2.1) d ∧
    FloorDist (1000 * s.cs) (p.1, p.2.1) (o.1, o.2.1) e

/-- the loss by rounding: none for whole velocities -/
def Slack (vel : ℚ) (k : Nat) : Prop := (∃ z : Nat, vel = z) ∨ ⌈1 / vel⌉ ≤ k

theorem heur_origin (hv : 0 < vel) {grid : Int → Int → Nat} {o : XKey} {h : XKey → Int} (H : HeurFrom s vel grid o h) (ho : InRange s o) : h o = 0 := by
  obtain ⟨L, H⟩ := H
  obtain ⟨d, e, h1, h2, h3⟩ := H o ho
  have hd := h2.1 0 .nil
  have he : (e : ℚ) ≤ 0 := floorDist_le h3 (le_refl 0) (by simp)
  have he' : e = 0 := by exact_mod_cast le_antisymm he (by positivity)
  have := divVel_le hv (x := max d (e : Nat)) (by omega) (n := 0) (by
    rw [he']; push_cast; rw [zero_mul]
    have : (d : ℚ) ≤ 0 := by exact_mod_cast hd
    exact max_le this (le_refl _))
  rw [h1]; push_cast at this; omega

/-- along an edge, in either direction, the heuristic changes by at most the cost and the slack -/
theorem heur_edge (hv : 0 < vel) (hf : NotTooFast s vel) (hw : Followable s vel) {grid : Int → Int → Nat} {o : XKey} {h : XKey → Int}
    (H : HeurFrom s vel grid o h) {k : Nat} (hk : Slack vel k) {m : MPrim} {p q : XKey} {n : Nat} (hp : InRange s p) (hq : InRange s q) (e : Edge s grid m p q n) :
    (h p).toNat ≤ (h q).toNat + n + k ∧ (h q).toNat ≤ (h p).toNat + n + k := by
  obtain ⟨L, H⟩ := H
  obtain ⟨d, f, h1, h2, h3⟩ := H p hp
  obtain ⟨d', f', h1', h2', h3'⟩ := H q hq
  obtain ⟨w, wk, hwk⟩ := edge_way hv hw e
  have hed := edge_fast hv hf e
  have c1 : ((d' : Int) : ℚ) ≤ max (d' : ℚ) f' := le_max_left _ _
  have c2 : ((f' : Nat) : ℚ) ≤ max (d' : ℚ) f' := le_max_right _ _
  have c3 : ((d : Int) : ℚ) ≤ max (d : ℚ) f := le_max_left _ _
  have c4 : ((f : Nat) : ℚ) ≤ max (d : ℚ) f := le_max_right _ _
  have hn : (0 : ℚ) ≤ n * vel := mul_nonneg (by positivity) hv.le
  have s1 := divVel_step (x := max d (f : Nat)) (y := max d' (f' : Nat)) hv (by omega) (by omega) (c := n) (by
    have b1 : (d : ℚ) ≤ d' + w := by exact_mod_cast known_step h2 h2' (Grid2D.way_symm wk)
    have b2 := floorDist_step h3 h3' hn hed
    push_cast
    rw [max_lt_iff]
    constructor <;> linarith)
  have s2 := divVel_step (x := max d' (f' : Nat)) (y := max d (f : Nat)) hv (by omega) (by omega) (c := n) (by
    have b1 : (d' : ℚ) ≤ d + w := by exact_mod_cast known_step h2' h2 wk
    have b2 := floorDist_step h3' h3 hn (by push_cast at hed ⊢; convert hed using 1; ring)
    push_cast
    rw [max_lt_iff]
    constructor <;> linarith)
  rw [← h1, ← h1'] at s1 s2
  rcases hk with ⟨z, hz⟩ | hk
  · have := s1.2 z hz
    have := s2.2 z hz
    omega
  · omega

/-- what ARA* needs of the heuristics, for eps = e / D and primitives of cost at least `m` -/
theorem xyt_heur (stc : Static s c) (ok : SetupOk s) (N : XNumbering s num den) (hv : 0 < vel) (hf : NotTooFast s vel) (hw : Followable s vel) {m k : Nat}
    (hm : CostAtLeast s m) (hk : Slack vel k) (hG : ∀ g, InRange s g → HeurFrom s vel c.grid g (hg g)) (hS : ∀ g, InRange s g → HeurFrom s vel c.grid g (hs g))
    {D e : Nat} (hD : 0 < D) (fwd : Bool) : HeurUpTo (xytPEnv c num den hg hs) fwd D e (e * m + e * k + D) (D * m) := by
  have arith : ∀ {x y n : Nat}, x ≤ y + n + k → m ≤ n → D * m * (e * x / D) ≤ D * m * (e * y / D) + (e * m + e * k + D) * n := by
    intro x y n h hn
    have := Nav2DProps.infl_drop (D := D) (e := e) (x := x) (y := y) (k := n + k) hD (by omega)
    generalize e * x / D = X at *
    generalize e * y / D = Y at *
    have t1 : D * m * X = m * (D * X) := by ring
    have t2 : D * m * Y = m * (D * Y) := by ring
    have t3 : m * (D * X) ≤ m * (D * Y + e * (n + k) + D) := Nat.mul_le_mul_left m this
    have t4 : m * (e * k + D) ≤ n * (e * k + D) := Nat.mul_le_mul_right _ hn
    rw [t1, t2]
    nlinarith
  have zero : ∀ (h : XKey → XKey → Int), (∀ g, InRange s g → HeurFrom s vel c.grid g (h g)) → ∀ i, (match den i, den i with
      | some g, some p => (h g p).toNat
      | _, _ => 0) = 0 := by
    intro h hH i
    cases hi : den i with
    | none => rfl
    | some g =>
      simp only
      rw [heur_origin hv (hH g (N.right _ _ hi).2) (N.right _ _ hi).2]; rfl
  unfold HeurUpTo
  cases fwd with
  | true =>
    simp only [if_true]
    intro gl
    refine ⟨zero hg hG gl, ?_⟩
    intro i j n h
    obtain ⟨_, p, q, mm, hp, hq, ed⟩ := (succs_edge stc ok N).mp h
    simp only [xytPEnv, hp, hq]
    cases hgl : den gl with
    | none => simp
    | some g =>
      exact arith (heur_edge hv hf hw (hG g (N.right _ _ hgl).2) hk (N.right _ _ hp).2 (N.right _ _ hq).2 ed).1 (edge_cost_ge hm ed)
  | false =>
    simp only [Bool.false_eq_true, if_false]
    intro gl s0
    refine ⟨zero hs hS s0, ?_⟩
    intro j i n h
    obtain ⟨p, q, mm, hp, hq, ed⟩ := (preds_edge stc ok N).mp h
    simp only [xytPEnv, hp, hq]
    cases hgl : den s0 with
    | none => simp
    | some g =>
      exact arith (heur_edge hv hf hw (hS g (N.right _ _ hgl).2) hk (N.right _ _ hp).2 (N.right _ _ hq).2 ed).2 (edge_cost_ge hm ed)

/-- for whole velocities the heuristics are consistent -/
theorem xyt_heurOk (stc : Static s c) (ok : SetupOk s) (N : XNumbering s num den) (hv : 0 < vel) (hf : NotTooFast s vel) (hw : Followable s vel)
    (hz : ∃ z : Nat, vel = z) (hG : ∀ g, InRange s g → HeurFrom s vel c.grid g (hg g)) (hS : ∀ g, InRange s g → HeurFrom s vel c.grid g (hs g))
    (fwd : Bool) : HeurOk (xytPEnv c num den hg hs) fwd := by
  have zero : ∀ (h : XKey → XKey → Int), (∀ g, InRange s g → HeurFrom s vel c.grid g (h g)) → ∀ i, (match den i, den i with
      | some g, some p => (h g p).toNat
      | _, _ => 0) = 0 := by
    intro h hH i
    cases hi : den i with
    | none => rfl
    | some g =>
      simp only
      rw [heur_origin hv (hH g (N.right _ _ hi).2) (N.right _ _ hi).2]; rfl
  unfold HeurOk
  cases fwd with
  | true =>
    simp only [if_true]
    intro gl
    refine ⟨zero hg hG gl, ?_⟩
    intro i j n h
    obtain ⟨_, p, q, mm, hp, hq, ed⟩ := (succs_edge stc ok N).mp h
    simp only [xytPEnv, hp, hq]
    cases hgl : den gl with
    | none => simp
    | some g =>
      exact (heur_edge (k := 0) hv hf hw (hG g (N.right _ _ hgl).2) (.inl hz) (N.right _ _ hp).2 (N.right _ _ hq).2 ed).1
  | false =>
    simp only [Bool.false_eq_true, if_false]
    intro gl s0
    refine ⟨zero hs hS s0, ?_⟩
    intro j i n h
    obtain ⟨p, q, mm, hp, hq, ed⟩ := (preds_edge stc ok N).mp h
    simp only [xytPEnv, hp, hq]
    cases hgl : den s0 with
    | none => simp
    | some g =>
      exact (heur_edge (k := 0) hv hf hw (hS g (N.right _ _ hgl).2) (.inl hz) (N.right _ _ hp).2 (N.right _ _ hq).2 ed).2

/-! ## Walks and paths -/

theorem walk_of_lwalk (stc : Static s c) (ok : SetupOk s) (N : XNumbering s num den) {a b : Nat} {p q : XKey} (ha : den a = some p) (hb : den b = some q)
    {n : Nat} (w : LWalk s c.grid p q n) : ∃ n', n' ≤ n ∧ Walk ((xytPEnv c num den hg hs).succs b) a b n' := by
  have key : ∀ t n, LWalk s c.grid p t n → (∃ n', n' ≤ n ∧ Walk ((xytPEnv c num den hg hs).succs b) a b n') ∨
      (∃ j, den j = some t ∧ Walk ((xytPEnv c num den hg hs).succs b) a j n) := by
    intro t n w
    induction w with
    | nil => right; exact ⟨a, ha, .nil⟩
    | @snoc r t n n2 m w e ih =>
      rcases ih with ⟨n', h1, h2⟩ | ⟨j, hj, hw⟩
      · left; exact ⟨n', by omega, h2⟩
      · by_cases hjb : j = b
        · subst hjb; left; exact ⟨n, by omega, hw⟩
        · right
          have ht := N.left t (edge_inRange stc ok e)
          exact ⟨num t, ht, hw.snoc ((succs_edge stc ok N).mpr ⟨hjb, r, t, m, hj, ht, e⟩)⟩
  rcases key q n w with h | ⟨j, hj, hw⟩
  · exact h
  · have : j = b := by rw [← (N.right _ _ hj).1, (N.right _ _ hb).1]
    subst this
    exact ⟨n, Nat.le_refl _, hw⟩

theorem lpath_of_path (stc : Static s c) (ok : SetupOk s) (N : XNumbering s num den) {gl : Nat} {l : List Nat} {n : Nat}
    (h : PathCost ((xytPEnv c num den hg hs).succs gl) l n) (hd : ∀ a, l.head? = some a → ∃ p, den a = some p) :
    ∃ ks, l.map den = ks.map some ∧ LPath s c.grid ks n := by
  induction h with
  | single i =>
    obtain ⟨p, hp⟩ := hd i rfl
    exact ⟨[p], by simp [hp], .single p⟩
  | @cons i j m n l hm hl ih =>
    obtain ⟨_, p, q, mm, hp, hq, e⟩ := (succs_edge stc ok N).mp hm
    obtain ⟨ks, h1, h2⟩ := ih (by intro a ha; simp at ha; subst ha; exact ⟨q, hq⟩)
    cases ks with
    | nil => simp at h1
    | cons k ks =>
      simp only [List.map_cons, List.cons.injEq] at h1
      rw [hq] at h1
      have : q = k := Option.some.inj h1.1
      subst this
      refine ⟨p :: q :: ks, ?_, .cons mm e h2⟩
      simp only [List.map_cons, hp, hq, h1.2]

section
variable {env0 : PEnv} {fwd : Bool} {D ie fe de : Nat} {fs : Bool} {ops : List ARA.Op} {st st' : ARA} {bs : List Nat}
  {res : ARA.Result} {a b : Nat} {p q : XKey} {xops : List XEnv.Op} {stx : XEnv}

/-- **C58** ARA* on the (x, y, theta) lattice, any history, forward or backward: a reported path is a sequence of states from the start to the goal, joined by transitions that are valid
with the current costs of the environment, after any history `xops` of calls to it (collision-free in the sense of C50), of total cost at most the reported cost. -/
theorem ara_xyt_path (he : EnvOk env0) (hok : ∀ op ∈ ops, OpOk op) (hrun : (ARA.init env0 fwd D ie fe de fs).run ops = some st)
    (ha : lastStart ops = some a) (hb : lastGoal ops = some b) (hbs : bs ≠ []) (hr : st.replan bs = .ok (st', res)) (hf : res.found = true)
    (hx : Hist s xops stx) (N : XNumbering s num den) (hmap : lastEnv env0 ops = xytPEnv stx.cfg num den hg hs) (hp : den a = some p) (hq : den b = some q) :
    ∃ ks n, res.path.map den = ks.map some ∧ ks.head? = some p ∧ ks.getLast? = some q ∧ ks.Nodup ∧ LPath s (costs s xops) ks n ∧ n ≤ res.cost := by
  obtain ⟨ix, eg, -, -⟩ := hist_inv hx
  have stc := ix.stc
  have ok := hx.1
  rw [← eg]
  obtain ⟨⟨h1, h2⟩, h3, n, hpc, hn, _⟩ := ARAProps.replan_path_sound he hok hrun ha hb hbs hr hf
  rw [hmap] at hpc
  obtain ⟨ks, e1, e2⟩ := lpath_of_path stc ok N hpc (by intro a' ha'; rw [h1] at ha'; cases ha'; exact ⟨p, hp⟩)
  have e3 : res.path = ks.map num := by
    have : ∀ (l : List Nat) (ks : List XKey), l.map den = ks.map some → l = ks.map num := by
      intro l
      induction l with
      | nil => intro ks h; cases ks with | nil => rfl | cons _ _ => simp at h
      | cons i l ih =>
        intro ks h
        cases ks with
        | nil => simp at h
        | cons k ks =>
          simp only [List.map_cons, List.cons.injEq] at h
          rw [List.map_cons, ← ih ks h.2, (N.right _ _ h.1).1]
    exact this _ _ e1
  refine ⟨ks, n, e1, ?_, ?_, ?_, e2, hn⟩
  · have := congrArg List.head? e1
    rw [List.head?_map, List.head?_map, h1] at this
    simp only [Option.map_some, hp] at this
    cases hk : ks.head? with
    | none => rw [hk] at this; cases this
    | some k => rw [hk] at this; simpa using this.symm
  · have := congrArg List.getLast? e1
    rw [List.getLast?_map, List.getLast?_map, h2] at this
    simp only [Option.map_some, hq] at this
    cases hk : ks.getLast? with
    | none => rw [hk] at this; cases this
    | some k => rw [hk] at this; simpa using this.symm
  · rw [e3] at h3
    exact List.Nodup.of_map _ h3

/-- **C58** When `replan` reports eps = e / D (≥ 1), and some walk of cost `n` leads from start to goal, then a path is found, of cost at most
(eps + (k * eps + 1) / m) * n, where `m` is the cost of the cheapest primitive and the slack `k` is 0 for whole nominal velocities and the rounded-up reciprocal of the velocity otherwise;
for eps = 1 and whole velocities the path is optimal. -/
theorem ara_xyt_bound (he : EnvOk env0) (hok : ∀ op ∈ ops, OpOk op) (hrun : (ARA.init env0 fwd D ie fe de fs).run ops = some st)
    (ha : lastStart ops = some a) (hb : lastGoal ops = some b) (hbs : bs ≠ []) (hr : st.replan bs = .ok (st', res)) {e n : Nat} (hfe : res.finalEps = some e)
    (hD : 0 < D) (he1 : D ≤ e) (hx : Hist s xops stx) (N : XNumbering s num den) (hmap : lastEnv env0 ops = xytPEnv stx.cfg num den hg hs)
    (hp : den a = some p) (hq : den b = some q) (hv : 0 < vel) (hf : NotTooFast s vel) (hw : Followable s vel) {m k : Nat} (hm : CostAtLeast s m)
    (hk : Slack vel k) (hG : ∀ g, InRange s g → HeurFrom s vel (costs s xops) g (hg g)) (hS : ∀ g, InRange s g → HeurFrom s vel (costs s xops) g (hs g))
    (w : LWalk s (costs s xops) p q n) :
    res.found = true ∧ D * m * res.cost ≤ (e * m + e * k + D) * n ∧ ((∃ z : Nat, vel = z) → e = D → res.cost ≤ n) := by
  obtain ⟨ix, eg, -, -⟩ := hist_inv hx
  have stc := ix.stc
  have ok := hx.1
  rw [← eg] at hG hS w
  obtain ⟨n', hn, w'⟩ := walk_of_lwalk (hg := hg) (hs := hs) stc ok N hp hq w
  have hP : fwd = false → PredsOk (lastEnv env0 ops) a := by
    intro _; rw [hmap]; exact xyt_predsOk stc ok N a
  have r1 := ARAProps.replan_bound_general he hok hrun ha hb hbs hr hfe (by rw [hmap]; exact xyt_heur stc ok N hv hf hw hm hk hG hS hD fwd)
    (by nlinarith) hP (by rw [hmap]; exact w')
  refine ⟨r1.1, Nat.le_trans r1.2 (Nat.mul_le_mul_left _ hn), ?_⟩
  rintro hz rfl
  have r2 := ARAProps.replan_bound he hok hrun ha hb hbs hr (by rw [hmap]; exact xyt_heurOk stc ok N hv hf hw hz hG hS fwd) (E := 1) hfe (Nat.le_refl 1)
    (by omega) hP (by rw [hmap]; exact w')
  omega

end

/-! ## The numbering in hindsight -/

theorem ids_eq {st' : XEnv} {num : XKey → Nat} (hnum : ∀ j k, st'.getCoord j = .ok k → num k = j) {f : XAct → Option (XKey × Nat)} :
    ∀ (as : List XAct) {l : List (Nat × Nat × XAct)}, l.map (fun e => (st'.tab.coord e.1, e.2.1, e.2.2)) = as.filterMap (fun a => (f a).map (fun r => (some r.1, r.2, a))) →
      l.map (fun e => (e.1, e.2.1)) = as.filterMap (fun a => (f a).map (fun r => (num r.1, r.2)))
  | [], l, h => by simp at h; simp [h]
  | a :: as, l, h => by
    rw [List.filterMap_cons] at h ⊢
    cases ha : f a with
    | none => rw [ha] at h; exact ids_eq hnum as h
    | some r =>
      rw [ha] at h
      simp only [Option.map_some] at h ⊢
      cases l with
      | nil => simp at h
      | cons x l =>
        simp only [List.map_cons, List.cons.injEq, Prod.mk.injEq] at h
        rw [List.map_cons, ids_eq hnum as h.2, hnum _ _ (getCoord_ok.mpr h.1.1), h.1.2.1]

/-- If `num` agrees with the ID table after the call, GetSuccs of the stateful model returns exactly the list of `xytPEnv`. -/
theorem xytPEnv_succs {st st' : XEnv} {id : Nat} {l : List (Nat × Nat × XAct)} {p : XKey} (i : SInv s st) (h : st.getSuccs id = .ok (st', l))
    (hp : st.getCoord id = .ok p) (hden : den id = some p) (hnum : ∀ j k, st'.getCoord j = .ok k → num k = j) :
    l.map (fun e => (e.1, e.2.1)) = (xytPEnv st.cfg num den hg hs).succs st.goalId id := by
  simp only [xytPEnv]
  unfold getSuccs at h
  by_cases hgl : id = st.goalId
  · rw [if_pos hgl]
    subst hgl
    rw [succsBy_goal] at h
    cases h; rfl
  · rw [if_neg hgl, hden]
    obtain ⟨st1, l1, h1, -, -, h2⟩ := succsBy_ok i (succAct_inRange i.stc) hgl (getCoord_ok.mp hp)
    rw [h] at h1; cases h1
    exact ids_eq hnum _ h2

/-- and so does GetPreds -/
theorem xytPEnv_preds {st st' : XEnv} {id : Nat} {l : List (Nat × Nat × XAct)} {p : XKey} (ok : SetupOk s) (i : SInv s st) (h : st.getPreds id = .ok (st', l))
    (hp : st.getCoord id = .ok p) (hden : den id = some p) (hnum : ∀ j k, st'.getCoord j = .ok k → num k = j) :
    l.map (fun e => (e.1, e.2.1)) = (xytPEnv st.cfg num den hg hs).preds st.goalId id := by
  simp only [xytPEnv]
  unfold getPreds at h
  rw [hden]
  obtain ⟨st1, l1, h1, -, -, h2⟩ := predsBy_ok ok i predAct_inRange (getCoord_ok.mp hp)
  rw [h] at h1; cases h1
  exact ids_eq hnum _ h2

/-! ## The tables of heuristics -/

/-- the heuristics of the environment itself -/
theorem env_goal_table {dyn : Nat} {ops : List XHeur.HOp} {h : XHeur} (hh : HHist s vel dyn ops h) (hu : UpToDate true ops) {t : XKey → Int}
    (ht : ∀ id p, h.env.getCoord id = .ok p → h.goalHeur id = .ok (t p)) (all : ∀ p, InRange s p → ∃ id, h.env.getCoord id = .ok p) :
    HeurFrom s vel (costs s (calls ops)) (goalOf s (calls ops)) t := by
  obtain ⟨L, hL⟩ := goal_value hh hu
  refine ⟨L, fun p hp => ?_⟩
  obtain ⟨id, hid⟩ := all p hp
  obtain ⟨d, e, h1, h2, h3⟩ := hL id p hid
  rw [ht id p hid] at h1
  exact ⟨d, e, Except.ok.inj h1, h2, h3⟩

theorem env_start_table {dyn : Nat} {ops : List XHeur.HOp} {h : XHeur} (hh : HHist s vel dyn ops h) (hu : UpToDate false ops) {t : XKey → Int}
    (ht : ∀ id p, h.env.getCoord id = .ok p → h.startHeur id = .ok (t p)) (all : ∀ p, InRange s p → ∃ id, h.env.getCoord id = .ok p) :
    HeurFrom s vel (costs s (calls ops)) (startOf s (calls ops)) t := by
  obtain ⟨L, hL⟩ := start_value hh hu
  refine ⟨L, fun p hp => ?_⟩
  obtain ⟨id, hid⟩ := all p hp
  obtain ⟨d, e, h1, h2, h3⟩ := hL id p hid
  rw [ht id p hid] at h1
  exact ⟨d, e, Except.ok.inj h1, h2, h3⟩

/-- a new search yields such a table, on maps of at most 1000 cells -/
theorem fresh_table (hc : 1 ≤ 1000 * s.cs) (ht : s.inscr ≤ 254) (dyn : Nat) (grid : Int → Int → Nat) (small : s.W.toNat * s.H.toNat ≤ 1000) {e o : XKey}
    (he : InRange s e) (ho : InRange s o) : HeurFrom s vel grid o (freshHeur s vel dyn grid e o) := by
  obtain ⟨d1, d2⟩ := XHeur.cell_den hc
  have hr : 0 ≤ 1000 * s.cs := le_trans (by norm_num) hc
  rcases GridBProps.bucket_search_total d1 d2 (b := XHeur.newSearch s dyn) .new grid ht (o.1, o.2.1) (e.1, e.2.1) .twoTimes with ⟨-, h⟩ | ⟨v, b, h, -⟩
  · simp only [Nat.div_one] at h; omega
  · have hv := XHeur.search_true hc (s := s) (dyn := dyn) (b := XHeur.newSearch s dyn) .new ht ho.1 he.1 h
    subst hv
    refine ⟨b.s.largest, fun p hp => ?_⟩
    obtain ⟨l1, l2, l3, -⟩ := GridBProps.bucket_lower_bounds (Nat.le_refl 1) d1 d2 .new ht (by decide) h (map2D_describes s _) (p.1, p.2.1)
      (by unfold GridProps.coarse; simp only [Nat.cast_one, Int.tdiv_one]; exact map2D_inside.mpr hp.1)
    unfold GridProps.coarse at l1 l2
    simp only [Nat.cast_one, Int.tdiv_one] at l1 l2
    refine ⟨_, _, ?_, ⟨l1, l2, l3⟩, floorDist_floorMulSqrt hr _ _⟩
    unfold freshHeur
    rw [h]

end Sbpl.XYTARAProps
