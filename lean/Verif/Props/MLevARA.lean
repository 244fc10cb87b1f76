import Verif.Model.MLevPlan
import Verif.Props.MLev
/-!
# ARA* on `EnvironmentNAVXYTHETAMLEVLAT`, end to end (C132)
-/

namespace Sbpl.MLevARAProps
open Sbpl XSpec XEnv XCfg GraphSpec PlannerSpec XHeurProps XYTProps XYTARAProps MEnv MLevProps

variable {s : Setup} {c : XCfg} {ls : List MLev} {num : XKey → Nat} {den : Nat → Option XKey} {hg hs : XKey → XKey → Int} {vel : ℚ}

theorem edge_inRange (stc : Static s c) (ok : SetupOk s) {grid : Int → Int → Nat} (hgr : c.grid = grid) {L : List Lvl} {m : MPrim} {p q : XKey} {n : Nat}
    (e : MEdge s grid L m p q n) : InRange s q := by
  obtain ⟨v, w, -, -, -, eb⟩ := MEdge.base e
  rw [← hgr] at eb
  exact XYTARAProps.edge_inRange stc ok eb

theorem act_edge (stc : Static s c) (ok : SetupOk s) (hls : ∀ l ∈ ls, LStatic s l) {p q : XKey} (hp : InRange s p) {n : Nat} :
    (∃ a ∈ c.acts p.2.2, MEnv.succAct ls c p a = some (q, n)) ↔ ∃ m, MEdge s c.grid (ls.map lvl) m p q n := by
  constructor
  · rintro ⟨a, ha, h⟩
    obtain ⟨m, i, h1, rfl⟩ := (mem_acts stc ok hp.2.1 hp.2.2).mp ha
    exact ⟨m, (MEnv.succAct_iff stc ok hls h1 hp.2.1 hp.2.2).mp h⟩
  · rintro ⟨m, e⟩
    have hm : m ∈ primsOf s p.2.2 := by
      unfold primsOf; rw [List.mem_filter, decide_eq_true_iff]; exact ⟨e.mem, e.heading⟩
    obtain ⟨i, hi, hmi⟩ := List.mem_iff_getElem.mp hm
    have hmi' : (primsOf s p.2.2)[i]? = some m := by rw [List.getElem?_eq_getElem hi, hmi]
    exact ⟨_, (mem_acts stc ok hp.2.1 hp.2.2).mpr ⟨m, i, hmi', rfl⟩, (MEnv.succAct_iff stc ok hls hmi' hp.2.1 hp.2.2).mpr e⟩

theorem succs_edge (stc : Static s c) (ok : SetupOk s) (hls : ∀ l ∈ ls, LStatic s l) (N : XNumbering s num den) {gl i j n : Nat} :
    (j, n) ∈ (mlevPEnv c ls num den hg hs).succs gl i ↔ i ≠ gl ∧ ∃ p q m, den i = some p ∧ den j = some q ∧ MEdge s c.grid (ls.map lvl) m p q n := by
  simp only [mlevPEnv]
  by_cases hi : i = gl
  · simp [hi]
  · rw [if_neg hi]
    cases hp : den i with
    | none => simp
    | some p =>
      have hr := (N.right _ _ hp).2
      simp only
      rw [List.mem_filterMap]
      constructor
      · rintro ⟨a, ha, h⟩
        cases hs : MEnv.succAct ls c p a with
        | none => rw [hs] at h; cases h
        | some r =>
          rw [hs] at h
          simp only [Option.map_some, Option.some.injEq, Prod.mk.injEq] at h
          obtain ⟨rfl, rfl⟩ := h
          obtain ⟨m, e⟩ := (act_edge stc ok hls hr).mp ⟨a, ha, hs⟩
          exact ⟨hi, p, r.1, m, rfl, N.left _ (edge_inRange stc ok rfl e), e⟩
      · rintro ⟨-, p', q, m, hp', hq, e⟩
        cases hp'
        obtain ⟨a, ha, h⟩ := (act_edge stc ok hls hr).mpr ⟨m, e⟩
        exact ⟨a, ha, by rw [h]; simp [(N.right _ _ hq).1]⟩

theorem preds_edge (stc : Static s c) (ok : SetupOk s) (hls : ∀ l ∈ ls, LStatic s l) (N : XNumbering s num den) {gl i j n : Nat} :
    (i, n) ∈ (mlevPEnv c ls num den hg hs).preds gl j ↔ ∃ p q m, den i = some p ∧ den j = some q ∧ MEdge s c.grid (ls.map lvl) m p q n := by
  simp only [mlevPEnv]
  cases hq : den j with
  | none => simp
  | some q =>
    have hr := (N.right _ _ hq).2
    simp only
    rw [List.mem_filterMap]
    constructor
    · rintro ⟨a, ha, h⟩
      cases hs : MEnv.predAct ls c q a with
      | none => rw [hs] at h; cases h
      | some r =>
        rw [hs] at h
        simp only [Option.map_some, Option.some.injEq, Prod.mk.injEq] at h
        obtain ⟨rfl, rfl⟩ := h
        obtain ⟨u, u0, uT, hu, hsu, hn⟩ := (mem_preds stc ok).mp ha
        have hpa := (MLevProps.predAct_iff hn (p := r.1) (n := r.2)).mp hs
        rw [stc.T] at uT
        have eu : r.1.2.2 = u := by rw [hpa.1, hsu]
        have hin : InRange s r.1 := by
          refine ⟨?_, by rw [eu]; exact u0, by rw [eu]; exact uT⟩
          have h2 := hpa.2
          unfold MEnv.succAct at h2
          split_ifs at h2 with k1 k2
          exact (stc.valid.mp (valid_iff.mp (MLevProps.actionCost_valid k2).1).1).1
        obtain ⟨m, e⟩ := (act_edge stc ok hls hin).mp ⟨a, by rw [eu]; exact hu, hpa.2⟩
        exact ⟨r.1, q, m, N.left _ hin, rfl, e⟩
    · rintro ⟨p, q', m, hp, hq', e⟩
      cases hq'
      have hin := (N.right _ _ hp).2
      obtain ⟨a, ha, h⟩ := (act_edge stc ok hls hin).mpr ⟨m, e⟩
      have hst : a.startTheta = p.2.2 := by
        rw [stc.acts] at ha
        obtain ⟨m, -, -, -, -, hst, -⟩ := mem_actsFor ok hin.2.1 hin.2.2 ha
        exact hst
      have hn : Utils.normDiscTheta a.endTheta c.T = q.2.2 := by
        unfold MEnv.succAct at h
        split_ifs at h
        simp only [Option.some.injEq, Prod.mk.injEq] at h
        rw [← h.1]; rfl
      have hpa := (MLevProps.predAct_iff hn (p := p) (n := n)).mpr ⟨hst.symm, h⟩
      exact ⟨a, (mem_preds stc ok).mpr ⟨p.2.2, hin.2.1, by rw [stc.T]; exact hin.2.2, ha, hst, hn⟩, by rw [hpa]; simp [(N.right _ _ hp).1]⟩

theorem edge_cost_ge {m0 : Nat} (hm : CostAtLeast s m0) {grid : Int → Int → Nat} {L : List Lvl} {m : MPrim} {p q : XKey} {n : Nat} (e : MEdge s grid L m p q n) :
    m0 ≤ n := by
  obtain ⟨v, w, -, -, hc⟩ := e.cost
  rw [hc]
  exact Nat.le_trans (hm m e.mem) (Nat.le_mul_of_pos_right _ (by omega))

theorem mlev_envOk (stc : Static s c) (ok : SetupOk s) (hls : ∀ l ∈ ls, LStatic s l) (N : XNumbering s num den) (hm : CostAtLeast s 1) :
    EnvOk (mlevPEnv c ls num den hg hs) := by
  refine ⟨?_, ?_, ?_, ?_, ?_⟩
  · intro gl gl' i h1 h2; simp [mlevPEnv, h1, h2]
  · intro gl i e h; simp [mlevPEnv] at h
  · intro gl i j n h
    obtain ⟨_, p, q, m, _, _, e⟩ := (succs_edge stc ok hls N).mp h
    exact edge_cost_ge hm e
  · intro gl i j n h
    obtain ⟨p, q, m, _, _, e⟩ := (preds_edge (gl := gl) stc ok hls N).mp h
    exact edge_cost_ge hm e
  · intro gl i j n hne h
    exact (succs_edge stc ok hls N).mpr ⟨hne, (preds_edge stc ok hls N).mp h⟩

theorem mlev_predsOk (stc : Static s c) (ok : SetupOk s) (hls : ∀ l ∈ ls, LStatic s l) (N : XNumbering s num den) (a : Nat) :
    PredsOk (mlevPEnv c ls num den hg hs) a := by
  intro gl i j n m _ h
  obtain ⟨_, h⟩ := (succs_edge stc ok hls N).mp h
  exact (preds_edge stc ok hls N).mpr h

/-! ## Heuristics -/

/-- the heuristics of the base level are still consistent -/
theorem heur_medge (hv : 0 < vel) (hf : NotTooFast s vel) (hw : Followable s vel) {grid : Int → Int → Nat} {L : List Lvl} {o : XKey} {h : XKey → Int}
    (H : HeurFrom s vel grid o h) {k : Nat} (hk : Slack vel k) {m : MPrim} {p q : XKey} {n : Nat} (hp : InRange s p) (hq : InRange s q)
    (e : MEdge s grid L m p q n) : (h p).toNat ≤ (h q).toNat + n + k ∧ (h q).toNat ≤ (h p).toNat + n + k := by
  obtain ⟨v, w, -, -, hc, eb⟩ := MEdge.base e
  obtain ⟨h1, h2⟩ := XYTARAProps.heur_edge hv hf hw H hk hp hq eb
  have : m.cost * (v + 1) ≤ n := by rw [hc]; exact Nat.mul_le_mul_left _ (by omega)
  omega

theorem zero_origin (N : XNumbering s num den) (hv : 0 < vel) {grid : Int → Int → Nat} (h : XKey → XKey → Int)
    (hH : ∀ g, InRange s g → HeurFrom s vel grid g (h g)) (i : Nat) : (match den i, den i with
      | some g, some p => (h g p).toNat
      | _, _ => 0) = 0 := by
  cases hi : den i with
  | none => rfl
  | some g =>
    simp only
    rw [heur_origin hv (hH g (N.right _ _ hi).2) (N.right _ _ hi).2]; rfl

/-- what ARA* needs of the heuristics, for eps = e / D and primitives of cost at least `m` -/
theorem mlev_heur (stc : Static s c) (ok : SetupOk s) (hls : ∀ l ∈ ls, LStatic s l) (N : XNumbering s num den) (hv : 0 < vel) (hf : NotTooFast s vel)
    (hw : Followable s vel) {m k : Nat} (hm : CostAtLeast s m) (hk : Slack vel k) (hG : ∀ g, InRange s g → HeurFrom s vel c.grid g (hg g))
    (hS : ∀ g, InRange s g → HeurFrom s vel c.grid g (hs g)) {D e : Nat} (hD : 0 < D) (fwd : Bool) :
    HeurUpTo (mlevPEnv c ls num den hg hs) fwd D e (e * m + e * k + D) (D * m) := by
  have arith : ∀ {x y n : Nat}, x ≤ y + n + k → m ≤ n → D * m * (e * x / D) ≤ D * m * (e * y / D) + (e * m + e * k + D) * n := by
    intro x y n h hn
    have := Nav2DProps.infl_drop (D := D) (e := e) (x := x) (y := y) (k := n + k) hD (by omega)
    generalize e * x / D = X at *
    generalize e * y / D = Y at *
    have t1 : D * m * X = m * (D * X) := by ring
    have t2 : D * m * Y = m * (D * Y) := by ring
    have t3 : m * (D * X) ≤ m * (D * Y + e * (n + k) + D) := Nat.mul_le_mul_left m this
    have t4 : m * (e * k + D) ≤ n * (e * k + D) := Nat.mul_le_mul_right _ hn
    rw [t1, t2]
    nlinarith
  unfold HeurUpTo
  cases fwd with
  | true =>
    simp only [if_true]
    intro gl
    refine ⟨zero_origin N hv hg hG gl, ?_⟩
    intro i j n h
    obtain ⟨_, p, q, mm, hp, hq, ed⟩ := (succs_edge stc ok hls N).mp h
    simp only [mlevPEnv, hp, hq]
    cases hgl : den gl with
    | none => simp
    | some g =>
      exact arith (heur_medge hv hf hw (hG g (N.right _ _ hgl).2) hk (N.right _ _ hp).2 (N.right _ _ hq).2 ed).1 (edge_cost_ge hm ed)
  | false =>
    simp only [Bool.false_eq_true, if_false]
    intro gl s0
    refine ⟨zero_origin N hv hs hS s0, ?_⟩
    intro j i n h
    obtain ⟨p, q, mm, hp, hq, ed⟩ := (preds_edge stc ok hls N).mp h
    simp only [mlevPEnv, hp, hq]
    cases hgl : den s0 with
    | none => simp
    | some g =>
      exact arith (heur_medge hv hf hw (hS g (N.right _ _ hgl).2) hk (N.right _ _ hp).2 (N.right _ _ hq).2 ed).2 (edge_cost_ge hm ed)

/-- for whole velocities the heuristics are consistent -/
theorem mlev_heurOk (stc : Static s c) (ok : SetupOk s) (hls : ∀ l ∈ ls, LStatic s l) (N : XNumbering s num den) (hv : 0 < vel) (hf : NotTooFast s vel)
    (hw : Followable s vel) (hz : ∃ z : Nat, vel = z) (hG : ∀ g, InRange s g → HeurFrom s vel c.grid g (hg g))
    (hS : ∀ g, InRange s g → HeurFrom s vel c.grid g (hs g)) (fwd : Bool) : HeurOk (mlevPEnv c ls num den hg hs) fwd := by
  unfold HeurOk
  cases fwd with
  | true =>
    simp only [if_true]
    intro gl
    refine ⟨zero_origin N hv hg hG gl, ?_⟩
    intro i j n h
    obtain ⟨_, p, q, mm, hp, hq, ed⟩ := (succs_edge stc ok hls N).mp h
    simp only [mlevPEnv, hp, hq]
    cases hgl : den gl with
    | none => simp
    | some g =>
      exact (heur_medge (k := 0) hv hf hw (hG g (N.right _ _ hgl).2) (.inl hz) (N.right _ _ hp).2 (N.right _ _ hq).2 ed).1
  | false =>
    simp only [Bool.false_eq_true, if_false]
    intro gl s0
    refine ⟨zero_origin N hv hs hS s0, ?_⟩
    intro j i n h
    obtain ⟨p, q, mm, hp, hq, ed⟩ := (preds_edge stc ok hls N).mp h
    simp only [mlevPEnv, hp, hq]
    cases hgl : den s0 with
    | none => simp
    | some g =>
      exact (heur_medge (k := 0) hv hf hw (hS g (N.right _ _ hgl).2) (.inl hz) (N.right _ _ hp).2 (N.right _ _ hq).2 ed).2

/-! ## Walks and paths -/

theorem walk_of_mwalk (stc : Static s c) (ok : SetupOk s) (hls : ∀ l ∈ ls, LStatic s l) (N : XNumbering s num den) {a b : Nat} {p q : XKey}
    (ha : den a = some p) (hb : den b = some q) {n : Nat} (w : MWalk s c.grid (ls.map lvl) p q n) :
    ∃ n', n' ≤ n ∧ Walk ((mlevPEnv c ls num den hg hs).succs b) a b n' := by
  have key : ∀ t n, MWalk s c.grid (ls.map lvl) p t n → (∃ n', n' ≤ n ∧ Walk ((mlevPEnv c ls num den hg hs).succs b) a b n') ∨
      (∃ j, den j = some t ∧ Walk ((mlevPEnv c ls num den hg hs).succs b) a j n) := by
    intro t n w
    induction w with
    | nil => right; exact ⟨a, ha, .nil⟩
    | @snoc r t n n2 m w e ih =>
      rcases ih with ⟨n', h1, h2⟩ | ⟨j, hj, hw⟩
      · left; exact ⟨n', by omega, h2⟩
      · by_cases hjb : j = b
        · subst hjb; left; exact ⟨n, by omega, hw⟩
        · right
          have ht := N.left t (edge_inRange stc ok rfl e)
          exact ⟨num t, ht, hw.snoc ((succs_edge stc ok hls N).mpr ⟨hjb, r, t, m, hj, ht, e⟩)⟩
  rcases key q n w with h | ⟨j, hj, hw⟩
  · exact h
  · have : j = b := by rw [← (N.right _ _ hj).1, (N.right _ _ hb).1]
    subst this
    exact ⟨n, Nat.le_refl _, hw⟩

theorem mpath_of_path (stc : Static s c) (ok : SetupOk s) (hls : ∀ l ∈ ls, LStatic s l) (N : XNumbering s num den) {gl : Nat} {l : List Nat} {n : Nat}
    (h : PathCost ((mlevPEnv c ls num den hg hs).succs gl) l n) (hd : ∀ a, l.head? = some a → ∃ p, den a = some p) :
    ∃ ks, l.map den = ks.map some ∧ MPath s c.grid (ls.map lvl) ks n := by
  induction h with
  | single i =>
    obtain ⟨p, hp⟩ := hd i rfl
    exact ⟨[p], by simp [hp], .single p⟩
  | @cons i j m n l hm hl ih =>
    obtain ⟨_, p, q, mm, hp, hq, e⟩ := (succs_edge stc ok hls N).mp hm
    obtain ⟨ks, h1, h2⟩ := ih (by intro a ha; simp at ha; subst ha; exact ⟨q, hq⟩)
    cases ks with
    | nil => simp at h1
    | cons k ks =>
      simp only [List.map_cons, List.cons.injEq] at h1
      rw [hq] at h1
      have : q = k := Option.some.inj h1.1
      subst this
      refine ⟨p :: q :: ks, ?_, .cons mm e h2⟩
      simp only [List.map_cons, hp, hq, h1.2]

section
variable {env0 : PEnv} {fwd : Bool} {D ie fe de : Nat} {fs : Bool} {ops : List ARA.Op} {st st' : ARA} {bs : List Nat}
  {res : ARA.Result} {a b : Nat} {p q : XKey} {xops : List MOp} {stx : MEnv}

/-- **C132** ARA* on the lattice with additional levels, any history, forward or backward: a reported path is a sequence of states from the start to the goal, joined by transitions
that are valid with the current costs at all levels, after any history `xops` of calls to the environment, of total cost at most the reported cost. -/
theorem ara_mlev_path (he : EnvOk env0) (hok : ∀ op ∈ ops, OpOk op) (hrun : (ARA.init env0 fwd D ie fe de fs).run ops = some st)
    (ha : lastStart ops = some a) (hb : lastGoal ops = some b) (hbs : bs ≠ []) (hr : st.replan bs = .ok (st', res)) (hf : res.found = true)
    (hx : MHist s xops stx) (N : XNumbering s num den) (hmap : lastEnv env0 ops = mlevPEnv stx.env.cfg stx.levels num den hg hs)
    (hp : den a = some p) (hq : den b = some q) :
    ∃ ks n, res.path.map den = ks.map some ∧ ks.head? = some p ∧ ks.getLast? = some q ∧ ks.Nodup ∧
      MPath s (costs s (baseCalls xops)) (levelsOf s xops) ks n ∧ n ≤ res.cost := by
  obtain ⟨ix, eg, -, -, -, el⟩ := mhist_inv hx
  have stc := ix.env.stc
  have ok := hx.1
  rw [← eg, ← el]
  obtain ⟨⟨h1, h2⟩, h3, n, hpc, hn, _⟩ := ARAProps.replan_path_sound he hok hrun ha hb hbs hr hf
  rw [hmap] at hpc
  obtain ⟨ks, e1, e2⟩ := mpath_of_path stc ok ix.lst N hpc (by intro a' ha'; rw [h1] at ha'; cases ha'; exact ⟨p, hp⟩)
  have e3 : res.path = ks.map num := by
    have : ∀ (l : List Nat) (ks : List XKey), l.map den = ks.map some → l = ks.map num := by
      intro l
      induction l with
      | nil => intro ks h; cases ks with | nil => rfl | cons _ _ => simp at h
      | cons i l ih =>
        intro ks h
        cases ks with
        | nil => simp at h
        | cons k ks =>
          simp only [List.map_cons, List.cons.injEq] at h
          rw [List.map_cons, ← ih ks h.2, (N.right _ _ h.1).1]
    exact this _ _ e1
  refine ⟨ks, n, e1, ?_, ?_, ?_, e2, hn⟩
  · have := congrArg List.head? e1
    rw [List.head?_map, List.head?_map, h1] at this
    simp only [Option.map_some, hp] at this
    cases hk : ks.head? with
    | none => rw [hk] at this; cases this
    | some k => rw [hk] at this; simpa using this.symm
  · have := congrArg List.getLast? e1
    rw [List.getLast?_map, List.getLast?_map, h2] at this
    simp only [Option.map_some, hq] at this
    cases hk : ks.getLast? with
    | none => rw [hk] at this; cases this
    | some k => rw [hk] at this; simpa using this.symm
  · rw [e3] at h3
    exact List.Nodup.of_map _ h3

/-- **C132** The bound on the cost is that of the base class (C58), although the heuristics only know the base level. -/
theorem ara_mlev_bound (he : EnvOk env0) (hok : ∀ op ∈ ops, OpOk op) (hrun : (ARA.init env0 fwd D ie fe de fs).run ops = some st)
    (ha : lastStart ops = some a) (hb : lastGoal ops = some b) (hbs : bs ≠ []) (hr : st.replan bs = .ok (st', res)) {e n : Nat} (hfe : res.finalEps = some e)
    (hD : 0 < D) (he1 : D ≤ e) (hx : MHist s xops stx) (N : XNumbering s num den) (hmap : lastEnv env0 ops = mlevPEnv stx.env.cfg stx.levels num den hg hs)
    (hp : den a = some p) (hq : den b = some q) (hv : 0 < vel) (hf : NotTooFast s vel) (hw : Followable s vel) {m k : Nat} (hm : CostAtLeast s m)
    (hk : Slack vel k) (hG : ∀ g, InRange s g → HeurFrom s vel (costs s (baseCalls xops)) g (hg g))
    (hS : ∀ g, InRange s g → HeurFrom s vel (costs s (baseCalls xops)) g (hs g)) (w : MWalk s (costs s (baseCalls xops)) (levelsOf s xops) p q n) :
    res.found = true ∧ D * m * res.cost ≤ (e * m + e * k + D) * n ∧ ((∃ z : Nat, vel = z) → e = D → res.cost ≤ n) := by
  obtain ⟨ix, eg, -, -, -, el⟩ := mhist_inv hx
  have stc := ix.env.stc
  have ok := hx.1
  rw [← eg] at hG hS
  rw [← eg, ← el] at w
  obtain ⟨n', hn, w'⟩ := walk_of_mwalk (hg := hg) (hs := hs) stc ok ix.lst N hp hq w
  have hP : fwd = false → PredsOk (lastEnv env0 ops) a := by
    intro _; rw [hmap]; exact mlev_predsOk stc ok ix.lst N a
  have r1 := ARAProps.replan_bound_general he hok hrun ha hb hbs hr hfe (by rw [hmap]; exact mlev_heur stc ok ix.lst N hv hf hw hm hk hG hS hD fwd)
    (by nlinarith) hP (by rw [hmap]; exact w')
  refine ⟨r1.1, Nat.le_trans r1.2 (Nat.mul_le_mul_left _ hn), ?_⟩
  rintro hz rfl
  have r2 := ARAProps.replan_bound he hok hrun ha hb hbs hr (by rw [hmap]; exact mlev_heurOk stc ok ix.lst N hv hf hw hz hG hS fwd) (E := 1) hfe (Nat.le_refl 1)
    (by omega) hP (by rw [hmap]; exact w')
  omega

end

/-! ## The numbering in hindsight -/

/-- If `num` agrees with the ID table after the call, GetSuccs of the stateful model returns exactly the list of `mlevPEnv`. -/
theorem mlevPEnv_succs {st st' : MEnv} {id : Nat} {l : List (Nat × Nat × XAct)} {p : XKey} (i : MInv s st) (h : st.getSuccs id = .ok (st', l))
    (hp : st.env.getCoord id = .ok p) (hden : den id = some p) (hnum : ∀ j k, st'.env.getCoord j = .ok k → num k = j) :
    l.map (fun e => (e.1, e.2.1)) = (mlevPEnv st.env.cfg st.levels num den hg hs).succs st.env.goalId id := by
  simp only [mlevPEnv]
  obtain ⟨e, h1, rfl⟩ := back_ok h
  by_cases hgl : id = st.env.goalId
  · rw [if_pos hgl]
    subst hgl
    rw [succsBy_goal] at h1
    cases h1; rfl
  · rw [if_neg hgl, hden]
    obtain ⟨st1, l1, h2, -, -, h3⟩ := succsBy_ok i.env (MEnv.succAct_inRange i.env.stc st.levels) hgl (getCoord_ok.mp hp)
    rw [h1] at h2; cases h2
    exact ids_eq hnum _ h3

/-- and so does GetPreds -/
theorem mlevPEnv_preds {st st' : MEnv} {id : Nat} {l : List (Nat × Nat × XAct)} {p : XKey} (ok : SetupOk s) (i : MInv s st) (h : st.getPreds id = .ok (st', l))
    (hp : st.env.getCoord id = .ok p) (hden : den id = some p) (hnum : ∀ j k, st'.env.getCoord j = .ok k → num k = j) :
    l.map (fun e => (e.1, e.2.1)) = (mlevPEnv st.env.cfg st.levels num den hg hs).preds st.env.goalId id := by
  simp only [mlevPEnv]
  obtain ⟨e, h1, rfl⟩ := back_ok h
  rw [hden]
  obtain ⟨st1, l1, h2, -, -, h3⟩ := predsBy_ok ok i.env (MEnv.predAct_inRange st.levels) (getCoord_ok.mp hp)
  rw [h1] at h2; cases h2
  exact ids_eq hnum _ h3

end Sbpl.MLevARAProps
