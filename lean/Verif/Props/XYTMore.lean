import Verif.Props.XYT
/-!
# (x, y, theta) lattice environment: changed edges, lazy costs, actions of a path (C52 – C54)
-/

namespace Sbpl.XYTProps
open XEnv XSpec StateTable XCfg

variable {s : Setup} {ops : List Op} {st : XEnv}

/-! ## C52: changed edges -/

theorem mem_addNew {l : List XKey} {k k' : XKey} : k' ∈ addNew l k ↔ k' ∈ l ∨ k' = k := by
  unfold addNew
  split_ifs with h
  · constructor
    · exact .inl
    · rintro (a | rfl)
      · exact a
      · exact h
  · simp

theorem mem_foldAdd : ∀ (ks l : List XKey) (k : XKey), k ∈ ks.foldl addNew l ↔ k ∈ l ∨ k ∈ ks := by
  intro ks
  induction ks with
  | nil => simp
  | cons a ks ih => intro l k; rw [List.foldl_cons, ih, mem_addNew, List.mem_cons, or_assoc]

theorem mem_affPreds {acts : List XAct} {k : XKey} : k ∈ affPreds acts ↔ ∃ a ∈ acts, k ∈ affOf a := by
  unfold affPreds
  rw [mem_foldAdd, List.mem_flatMap]; simp

/-- **C52** GetPredsofChangedEdges reports, each once and without creating any, exactly the existing states for which some primitive of their heading
is registered to depend on a changed cell. -/
theorem changed_preds_exact (h : Hist s ops st) (cs : List (Int × Int)) :
    (st.changedPreds cs).2.Nodup ∧ (∀ id, (st.changedPreds cs).1.getCoord id = st.getCoord id) ∧
    ∀ id, id ∈ (st.changedPreds cs).2 ↔
      ∃ p, st.getCoord id = .ok p ∧ ∃ m ∈ s.prims, m.startTheta = p.2.2 ∧ ∃ r, Touched s m r ∧ shift p r ∈ cs := by
  obtain ⟨inv, -, -, -⟩ := hist_inv h
  obtain ⟨-, h2, h3, h4⟩ := changedPreds_ok inv.x cs
  refine ⟨h3, fun id => by rw [h2]; rfl, fun id => ?_⟩
  rw [h4, inv.stc.aff]
  constructor
  · rintro ⟨q, hq, k, hk, hc⟩
    obtain ⟨a, ha, hka⟩ := mem_affPreds.mp hk
    obtain ⟨t, t0, tT, hat⟩ := mem_allActs.mp ha
    obtain ⟨m, -, hm, hmt, hmk, e1, -, e3, e4⟩ := mem_actsFor h.1 t0 tT hat
    refine ⟨_, getCoord_ok.mpr hc, m, hm, ?_, ?_⟩
    · dsimp only
      unfold affOf at hka
      rcases List.mem_append.mp hka with hka | hka
      · obtain ⟨r, -, e⟩ := List.mem_map.mp hka
        rw [← e, hmt, ← e1]
      · simp only [List.mem_cons, List.not_mem_nil, or_false] at hka
        rcases hka with e | e <;> rw [e, hmt, ← e1]
    · unfold affOf at hka
      rcases List.mem_append.mp hka with hka | hka
      · obtain ⟨r, hr, e⟩ := List.mem_map.mp hka
        refine ⟨r, .inr (.inr ?_), ?_⟩
        · rw [hmk] at hr; exact mem_motionCells.mp hr
        · rw [← e]; unfold shift
          have : (r.1 + (-r.1 + q.1), r.2 + (-r.2 + q.2)) = q := Prod.ext (by dsimp only; omega) (by dsimp only; omega)
          rw [this]; exact hq
      · simp only [List.mem_cons, List.not_mem_nil, or_false] at hka
        rcases hka with e | e
        · refine ⟨(0, 0), .inl rfl, ?_⟩
          rw [e]; unfold shift
          have : ((0 : Int) + (0 + q.1), (0 : Int) + (0 + q.2)) = q := Prod.ext (by dsimp only; omega) (by dsimp only; omega)
          dsimp only
          rw [this]; exact hq
        · refine ⟨(m.dX, m.dY), .inr (.inl rfl), ?_⟩
          rw [e, e3, e4]; unfold shift
          have : (m.dX + (-m.dX + q.1), m.dY + (-m.dY + q.2)) = q := Prod.ext (by dsimp only; omega) (by dsimp only; omega)
          dsimp only
          rw [this]; exact hq
  · rintro ⟨p, hp, m, hm, hmt, r, hr, hcs⟩
    have hk := getCoord_ok.mp hp
    have hrg := (inv.stc.inRange.mp (inRange_of_coord inv.x hk)).2
    have hmf : m ∈ s.prims.filter (fun m => decide (m.startTheta = p.2.2)) := List.mem_filter.mpr ⟨hm, by simp [hmt]⟩
    obtain ⟨i, hi⟩ := List.mem_iff_getElem?.mp hmf
    have ha := act_of_prim (s := s) hi
    obtain ⟨m', hm'1, -, -, -, e1, -, e3, e4⟩ := mem_actsFor h.1 hrg.1 hrg.2 ha
    have : (mkAct s.cs s.foot i m).aind = i := rfl
    rw [this, hi] at hm'1
    cases hm'1
    refine ⟨shift p r, hcs, (-r.1, -r.2, p.2.2), mem_affPreds.mpr ⟨_, mem_allActs.mpr ⟨p.2.2, hrg.1, hrg.2, ha⟩, ?_⟩, ?_⟩
    · unfold affOf
      rw [e1, e3, e4]
      rcases hr with rfl | rfl | hr
      · simp
      · simp
      · exact List.mem_append_left _ (List.mem_map.mpr ⟨r, mem_motionCells.mpr hr, rfl⟩)
    · rw [hk]; unfold shift
      congr 1
      exact Prod.ext (by dsimp only; omega) (Prod.ext (by dsimp only; omega) rfl)

/-- an edge only depends on the costs of the touched cells -/
theorem edge_mono {g1 g2 : Int → Int → Nat} (hct : CentreTouched s) {m : MPrim} {p q : XKey} {c : Nat}
    (hg : ∀ r, Touched s m r → InMap s (shift p r) → g1 (shift p r).1 (shift p r).2 = g2 (shift p r).1 (shift p r).2)
    (e : Edge s g1 m p q c) : Edge s g2 m p q c := by
  have es : shift p (0, 0) = (p.1, p.2.1) := by unfold shift; simp
  have ed : shift p (m.dX, m.dY) = (q.1, q.2.1) := by unfold shift; rw [e.endX, e.endY]; exact Prod.ext (Int.add_comm _ _) (Int.add_comm _ _)
  have hs : g1 p.1 p.2.1 = g2 p.1 p.2.1 := by
    have := hg (0, 0) (.inl rfl) (by rw [es]; exact e.src.1)
    rw [es] at this; exact this
  have hd : g1 q.1 q.2.1 = g2 q.1 q.2.1 := by
    have := hg (m.dX, m.dY) (.inr (.inl rfl)) (by rw [ed]; exact e.dst.1)
    rw [ed] at this; exact this
  have hc : ∀ r, Centre s m r → g1 (shift p r).1 (shift p r).2 = g2 (shift p r).1 (shift p r).2 :=
    fun r hr => hg r (hct m e.mem r hr) (e.centre r hr).1
  have mc : ∀ (S : Int × Int → Prop) v, (∀ z, S z → g1 z.1 z.2 = g2 z.1 z.2) → (MaxCost g1 S v ↔ MaxCost g2 S v) := by
    intro S v hS
    unfold MaxCost
    constructor
    · rintro ⟨a, b⟩
      refine ⟨fun z hz => by rw [← hS z hz]; exact a z hz, ?_⟩
      rcases b with b | ⟨z, hz, b⟩
      · exact .inl b
      · exact .inr ⟨z, hz, by rw [← hS z hz]; exact b⟩
    · rintro ⟨a, b⟩
      refine ⟨fun z hz => by rw [hS z hz]; exact a z hz, ?_⟩
      rcases b with b | ⟨z, hz, b⟩
      · exact .inl b
      · exact .inr ⟨z, hz, by rw [hS z hz]; exact b⟩
  refine ⟨e.mem, e.heading, e.endX, e.endY, e.endT, ?_, ?_, ?_, ?_, ?_, e.finite⟩
  · rw [← hs]; exact e.src
  · rw [← hd]; exact e.dst
  · intro r hr
    rw [← hc r hr]; exact e.centre r hr
  · intro hp hv r hr
    have := e.swept hp (fun v hmv => hv v ((mc _ v (by rintro z ⟨r, hr, rfl⟩; exact hc r hr)).mp hmv)) r hr
    rw [← hg r (.inr (.inr hr)) this.1]
    exact this
  · obtain ⟨v, hv, hn⟩ := e.cost
    refine ⟨v, (mc _ v ?_).mp hv, hn⟩
    rintro z (rfl | rfl | ⟨r, hr, rfl⟩)
    · exact hs
    · exact hd
    · exact hc r hr

/-- **C52** When the centre of the robot only visits the source cell, the end cell and swept cells, every existing state with an edge that the calls `ops'` added,
removed or gave another cost is reported, if the changed cells are passed on. -/
theorem changed_preds_reported (hct : CentreTouched s) (h : Hist s ops st) {ops' : List Op} {st2 : XEnv} (hc : ∀ op ∈ ops', CallOk s op)
    (hr : st.run ops' = some st2) {id : Nat} {p : XKey} (hp : st2.getCoord id = .ok p) {m : MPrim} {q : XKey} {c : Nat}
    (hd : ¬ (Edge s (costs s ops) m p q c ↔ Edge s (costs s (ops ++ ops')) m p q c)) {cs : List (Int × Int)}
    (hcs : ∀ z, InMap s z → costs s ops z.1 z.2 ≠ costs s (ops ++ ops') z.1 z.2 → z ∈ cs) : id ∈ (st2.changedPreds cs).2 := by
  rw [(changed_preds_exact (hist_append h hc hr) cs).2.2]
  by_contra hn
  have hn' : ∀ m ∈ s.prims, m.startTheta = p.2.2 → ∀ r, Touched s m r → shift p r ∉ cs := by
    intro m hm ht r htr hin
    exact hn ⟨p, hp, m, hm, ht, r, htr, hin⟩
  apply hd
  constructor
  · intro e
    refine edge_mono hct (fun r htr hin => ?_) e
    by_contra hne
    exact hn' m e.mem e.heading r htr (hcs _ hin hne)
  · intro e
    refine edge_mono hct (fun r htr hin => ?_) e
    by_contra hne
    exact hn' m e.mem e.heading r htr (hcs _ hin (fun q => hne q.symm))

/-! ## C53: lazy costs -/

theorem lazy_of_succ {c : XCfg} {p : XKey} {a : XAct} {q : XKey} {n : Nat} (h : c.succAct p a = some (q, n)) :
    c.lazySuccAct p a = some (q, a.cost) ∧ a.cost ≤ n := by
  unfold succAct at h
  split_ifs at h with h1 h2
  cases h
  refine ⟨by unfold lazySuccAct; rw [if_neg h1], ?_⟩
  unfold actionCost at h2 ⊢
  by_cases k1 : c.valid p.1 p.2.1 = false
  · simp [k1] at h2
  by_cases k3 : c.grid (p.1 + a.dX) (p.2.1 + a.dY) ≥ c.inscr
  · simp [k1, h1, k3] at h2
  · rw [if_neg k1, if_neg h1, if_neg k3] at h2 ⊢
    cases hsc : c.scan p.1 p.2.1 a.interm 0 with
    | none => rw [hsc] at h2; exact absurd (Nat.le_refl _) h2
    | some v =>
      rw [hsc] at h2
      dsimp only at h2 ⊢
      split_ifs at h2 ⊢
      · exact absurd (Nat.le_refl _) h2
      · exact Nat.le_mul_of_pos_right _ (by omega)

theorem lazy_of_pred {c : XCfg} {q : XKey} {a : XAct} {p : XKey} {n : Nat} (h : c.predAct q a = some (p, n)) :
    c.lazyPredAct q a = some (p, a.cost) ∧ a.cost ≤ n := by
  have e : ∀ x y : Int, x - y + y = x := by intros; omega
  unfold predAct at h
  split_ifs at h with h1 h2
  cases h
  refine ⟨by unfold lazyPredAct; rw [if_neg h1], ?_⟩
  have hv := actionCost_valid h2
  have hs : c.succAct (source q a) a = some (c.target (source q a) a, c.actionCost (q.1 - a.dX) (q.2.1 - a.dY) a) := by
    unfold succAct source
    dsimp only
    rw [if_neg (by rw [hv.2]; simp), if_neg h2]
  exact (lazy_of_succ hs).2

/-- two loops over the same actions, one giving more results than the other -/
theorem loops_sub {f g : XAct → Option (XKey × Nat)} {as : List XAct} {s1 s2 : XEnv} {l1 l2 : List (Nat × Nat × XAct)}
    (h1 : l1.map (fun e => (s1.tab.coord e.1, e.2.1, e.2.2)) = as.filterMap (fun a => (f a).map (fun r => (some r.1, r.2, a))))
    (h2 : l2.map (fun e => (s2.tab.coord e.1, e.2.1, e.2.2)) = as.filterMap (fun a => (g a).map (fun r => (some r.1, r.2, a))))
    {j c : Nat} {a : XAct} (hm : (j, c, a) ∈ l1) :
    ∃ q, s1.tab.coord j = some q ∧ f a = some (q, c) ∧ ∀ c', g a = some (q, c') → ∃ j', (j', c', a) ∈ l2 ∧ s2.tab.coord j' = some q := by
  have : (s1.tab.coord j, c, a) ∈ l1.map (fun e => (s1.tab.coord e.1, e.2.1, e.2.2)) := List.mem_map.mpr ⟨_, hm, rfl⟩
  rw [h1, List.mem_filterMap] at this
  obtain ⟨a', ha', e⟩ := this
  cases hs : f a' with
  | none => rw [hs] at e; cases e
  | some r =>
    rw [hs] at e
    simp only [Option.map_some, Option.some.injEq, Prod.mk.injEq] at e
    obtain ⟨e1, e2, e3⟩ := e
    subst e3
    refine ⟨r.1, e1.symm, by rw [hs, ← e2], fun c' hg => ?_⟩
    have : (some r.1, c', a') ∈ as.filterMap (fun a => (g a).map (fun r => (some r.1, r.2, a))) := by
      rw [List.mem_filterMap]; exact ⟨a', ha', by rw [hg]; rfl⟩
    rw [← h2, List.mem_map] at this
    obtain ⟨⟨j', c'', a''⟩, hj, e⟩ := this
    simp only [Prod.mk.injEq] at e
    obtain ⟨e1, rfl, rfl⟩ := e
    exact ⟨j', hj, e1⟩

/-- **C53** GetLazySuccs covers GetSuccs: every successor is also a lazy one, by the same action, and its lazy cost is not larger than its true cost.  (A successor
that is new gets its ID in whichever call comes first, so results are compared by coordinates.) -/
theorem lazy_succs_cover (h : Hist s ops st) {id : Nat} {p : XKey} (hp : st.getCoord id = .ok p) :
    ∃ s1 l1 s2 l2, st.getSuccs id = .ok (s1, l1) ∧ st.getLazySuccs id = .ok (s2, l2) ∧
      ∀ j c a, (j, c, a) ∈ l1 → ∃ q j' c', s1.getCoord j = .ok q ∧ s2.getCoord j' = .ok q ∧ (j', c', a) ∈ l2 ∧ c' ≤ c := by
  obtain ⟨inv, -, -, -⟩ := hist_inv h
  by_cases hg : id = st.goalId
  · subst hg
    exact ⟨st, [], st, [], succsBy_goal _ _, succsBy_goal _ _, by simp⟩
  · obtain ⟨s1, l1, h1, -, -, h4⟩ := succsBy_ok inv (succAct_inRange inv.stc) hg (getCoord_ok.mp hp)
    obtain ⟨s2, l2, g1, -, -, g4⟩ := succsBy_ok inv (lazySuccAct_inRange inv.stc) hg (getCoord_ok.mp hp)
    refine ⟨s1, l1, s2, l2, h1, g1, ?_⟩
    intro j c a hm
    obtain ⟨q, hq, hs, hl⟩ := loops_sub h4 g4 hm
    obtain ⟨e1, e2⟩ := lazy_of_succ hs
    obtain ⟨j', hj', hq'⟩ := hl _ e1
    exact ⟨q, j', a.cost, getCoord_ok.mpr hq, getCoord_ok.mpr hq', hj', e2⟩

/-- **C53** GetLazyPreds covers GetPreds. -/
theorem lazy_preds_cover (h : Hist s ops st) {id : Nat} {q : XKey} (hq : st.getCoord id = .ok q) :
    ∃ s1 l1 s2 l2, st.getPreds id = .ok (s1, l1) ∧ st.getLazyPreds id = .ok (s2, l2) ∧
      ∀ j c a, (j, c, a) ∈ l1 → ∃ p j' c', s1.getCoord j = .ok p ∧ s2.getCoord j' = .ok p ∧ (j', c', a) ∈ l2 ∧ c' ≤ c := by
  obtain ⟨inv, -, -, -⟩ := hist_inv h
  obtain ⟨s1, l1, h1, -, -, h4⟩ := predsBy_ok h.1 inv predAct_inRange (getCoord_ok.mp hq)
  obtain ⟨s2, l2, g1, -, -, g4⟩ := predsBy_ok h.1 inv lazyPredAct_inRange (getCoord_ok.mp hq)
  refine ⟨s1, l1, s2, l2, h1, g1, ?_⟩
  intro j c a hm
  obtain ⟨p, hp, hs, hl⟩ := loops_sub h4 g4 hm
  obtain ⟨e1, e2⟩ := lazy_of_pred hs
  obtain ⟨j', hj', hq'⟩ := hl _ e1
  exact ⟨p, j', a.cost, getCoord_ok.mpr hp, getCoord_ok.mpr hq', hj', e2⟩

/-- what the loop of GetTrueCost returns, if at most one action leads to the child -/
theorem trueCostLoop_ok (i : XInv st) {p q : XKey} {child : Nat} (hq : st.tab.coord child = some q) : ∀ (as : List XAct),
    as.Pairwise (fun a b => st.cfg.target p a ≠ st.cfg.target p b) →
    (∀ c, trueCostLoop st p child as = .ok (some c) ↔ ∃ a ∈ as, st.cfg.succAct p a = some (q, c)) ∧
    (trueCostLoop st p child as = .ok none ↔ ∃ a ∈ as, (∃ c, st.cfg.lazySuccAct p a = some (q, c)) ∧ st.cfg.succAct p a = none) ∧
    (trueCostLoop st p child as = .error .noTransition ↔ ∀ a ∈ as, ∀ c, st.cfg.lazySuccAct p a ≠ some (q, c)) := by
  intro as
  induction as with
  | nil => intro _; simp [trueCostLoop]
  | cons a as ih =>
    intro hpw
    obtain ⟨hne, hpw⟩ := List.pairwise_cons.mp hpw
    obtain ⟨i1, i2, i3⟩ := ih hpw
    obtain ⟨e, he1, he2, he3⟩ := coord_some i.tab hq
    by_cases hv : st.cfg.valid (p.1 + a.dX) (p.2.1 + a.dY) = false
    · have l0 : st.cfg.lazySuccAct p a = none := by unfold lazySuccAct; rw [if_pos hv]
      have s0 : st.cfg.succAct p a = none := by unfold succAct; rw [if_pos hv]
      simp only [trueCostLoop, if_pos hv, List.exists_mem_cons_iff, List.forall_mem_cons, l0, s0, i1, i2, i3]
      simp
    · have l0 : st.cfg.lazySuccAct p a = some (st.cfg.target p a, a.cost) := by unfold lazySuccAct; rw [if_neg hv]
      by_cases ht : st.cfg.target p a = q
      · -- this is the action
        have hf : st.find (st.cfg.target p a) = some e := (find_iff i).mpr ⟨he1, he2.trans ht.symm⟩
        have others : ∀ b ∈ as, ∀ c, st.cfg.lazySuccAct p b ≠ some (q, c) := by
          intro b hb c hbc
          unfold lazySuccAct at hbc
          split_ifs at hbc
          simp only [Option.some.injEq, Prod.mk.injEq] at hbc
          exact hne b hb (ht.trans hbc.1.symm)
        have others' : ∀ b ∈ as, ∀ c, st.cfg.succAct p b ≠ some (q, c) := fun b hb c hbc => others b hb _ (lazy_of_succ hbc).1
        simp only [trueCostLoop, if_neg hv, hf, if_neg (not_not.mpr he3)]
        by_cases hi : st.cfg.actionCost p.1 p.2.1 a ≥ INFINITECOST
        · have s0 : st.cfg.succAct p a = none := by unfold succAct; rw [if_neg hv, if_pos hi]
          rw [if_pos hi]
          refine ⟨fun c => ?_, ?_, ?_⟩
          · simp only [List.exists_mem_cons_iff, s0]
            constructor
            · intro h; cases h
            · rintro (h | ⟨b, hb, h⟩)
              · cases h
              · exact absurd h (others' b hb c)
          · simp only [List.exists_mem_cons_iff, s0, l0, ht]
            simp
          · simp only [List.forall_mem_cons, l0, ht]
            constructor
            · intro h; cases h
            · rintro ⟨h, -⟩; exact absurd rfl (h a.cost)
        · have s0 : st.cfg.succAct p a = some (q, st.cfg.actionCost p.1 p.2.1 a) := by unfold succAct; rw [if_neg hv, if_neg hi, ht]
          rw [if_neg hi]
          refine ⟨fun c => ?_, ?_, ?_⟩
          · simp only [List.exists_mem_cons_iff, s0]
            constructor
            · intro h; cases h; exact .inl rfl
            · rintro (h | ⟨b, hb, h⟩)
              · cases h; rfl
              · exact absurd h (others' b hb c)
          · simp only [List.exists_mem_cons_iff, s0]
            constructor
            · intro h; cases h
            · rintro (⟨-, h⟩ | ⟨b, hb, ⟨c, h⟩, -⟩)
              · cases h
              · exact absurd h (others b hb c)
          · simp only [List.forall_mem_cons, l0, ht]
            constructor
            · intro h; cases h
            · rintro ⟨h, -⟩; exact absurd rfl (h a.cost)
      · -- another state, which may or may not exist
        have hstep : trueCostLoop st p child (a :: as) = trueCostLoop st p child as := by
          simp only [trueCostLoop, if_neg hv]
          cases hf : st.find (st.cfg.target p a) with
          | none => rfl
          | some e' =>
            dsimp only
            rw [if_pos]
            intro hee
            obtain ⟨f1, f2⟩ := (find_iff i).mp hf
            have := coord_of_mem i.tab f1
            rw [hee, hq, f2] at this
            cases this
            exact ht rfl
        have l1 : ∀ c, st.cfg.lazySuccAct p a ≠ some (q, c) := by
          intro c; rw [l0]; intro h; simp only [Option.some.injEq, Prod.mk.injEq] at h; exact ht h.1
        have s1 : ∀ c, st.cfg.succAct p a ≠ some (q, c) := fun c h => l1 _ (lazy_of_succ h).1
        rw [hstep]
        refine ⟨fun c => ?_, ?_, ?_⟩
        · rw [i1, List.exists_mem_cons_iff]
          constructor
          · exact .inr
          · rintro (h | h)
            · exact absurd h (s1 c)
            · exact h
        · rw [i2, List.exists_mem_cons_iff]
          constructor
          · exact .inr
          · rintro (⟨⟨c, h⟩, -⟩ | h)
            · exact absurd h (l1 c)
            · exact h
        · rw [i3, List.forall_mem_cons]
          exact ⟨fun h => ⟨l1, h⟩, fun h => h.2⟩

theorem targets_distinct (i : SInv s st) (ok : SetupOk s) (hd : EndsDistinct s) (p : XKey) :
    (st.cfg.acts p.2.2).Pairwise (fun a b => st.cfg.target p a ≠ st.cfg.target p b) := by
  have hT : (0 : Int) < s.T := by exact_mod_cast i.stc.T0
  rw [i.stc.acts]
  unfold actsFor
  rw [List.pairwise_iff_getElem]
  intro a b ha hb hab heq
  rw [List.getElem_mapIdx, List.getElem_mapIdx] at heq
  rw [List.length_mapIdx] at ha hb
  have hpw := (List.pairwise_iff_getElem.mp (hd p.2.2)) a b ha hb hab
  generalize hma : (s.prims.filter (fun m => decide (m.startTheta = p.2.2)))[a] = m at *
  generalize hmb : (s.prims.filter (fun m => decide (m.startTheta = p.2.2)))[b] = m' at *
  have pm := ok.prims m (List.mem_filter.mp (hma ▸ List.getElem_mem ha)).1
  have pm' := ok.prims m' (List.mem_filter.mp (hmb ▸ List.getElem_mem hb)).1
  unfold target mkAct at heq
  dsimp only at heq
  rw [toChar_id pm.1 pm.2.1, toChar_id pm.2.2.1 pm.2.2.2.1, toChar_id pm.2.2.2.2.1 pm.2.2.2.2.2,
    toChar_id pm'.1 pm'.2.1, toChar_id pm'.2.2.1 pm'.2.2.2.1, toChar_id pm'.2.2.2.2.1 pm'.2.2.2.2.2, i.stc.T] at heq
  simp only [Prod.mk.injEq] at heq
  obtain ⟨h1, h2, h3⟩ := heq
  rcases hpw with h | h | h
  · exact h (by omega)
  · exact h (by omega)
  · exact h ⟨_, UtilsProps.normDiscTheta_residue m.endTheta hT, by rw [h3]; exact UtilsProps.normDiscTheta_residue m'.endTheta hT⟩

/-- **C53** When no two primitives of a heading lead to the same state, GetTrueCost gives the cost GetSuccs reports, -1 exactly for the lazy successors that are no
successors, and raises an exception exactly for pairs not connected even lazily. -/
theorem true_cost_exact (hd : EndsDistinct s) (h : Hist s ops st) {a b : Nat} {p q : XKey} (ha : st.getCoord a = .ok p) (hb : st.getCoord b = .ok q)
    (hg : a ≠ st.goalId) :
    ∃ s1 l1 s2 l2, st.getSuccs a = .ok (s1, l1) ∧ st.getLazySuccs a = .ok (s2, l2) ∧
      (∀ c, st.getTrueCost a b = .ok (some c) ↔ ∃ x, (b, c, x) ∈ l1) ∧
      (st.getTrueCost a b = .ok none ↔ (∃ c x, (b, c, x) ∈ l2) ∧ ¬ ∃ c x, (b, c, x) ∈ l1) ∧
      (st.getTrueCost a b = .error .noTransition ↔ ¬ ∃ c x, (b, c, x) ∈ l2) := by
  obtain ⟨inv, -, -, -⟩ := hist_inv h
  have hka := getCoord_ok.mp ha
  have hkb := getCoord_ok.mp hb
  obtain ⟨s1, l1, h1, h2, h3, h4⟩ := succsBy_ok inv (succAct_inRange inv.stc) hg hka
  obtain ⟨s2, l2, g1, g2, g3, g4⟩ := succsBy_ok inv (lazySuccAct_inRange inv.stc) hg hka
  have hr := (inRange_iff.mp (inRange_of_coord inv.x hka)).2
  have hcost : st.getTrueCost a b = trueCostLoop st p b (st.cfg.acts p.2.2) := by
    unfold getTrueCost
    rw [ha, hb]
    unfold actsAt
    dsimp only
    rw [if_pos hr]
  have mem : ∀ (f : XAct → Option (XKey × Nat)) (s' : XEnv) (l : List (Nat × Nat × XAct)), XInv s' → Ext st s' →
      l.map (fun e => (s'.tab.coord e.1, e.2.1, e.2.2)) = (st.cfg.acts p.2.2).filterMap (fun a => (f a).map (fun r => (some r.1, r.2, a))) →
      ∀ c x, (b, c, x) ∈ l ↔ x ∈ st.cfg.acts p.2.2 ∧ f x = some (q, c) := by
    intro f s' l ix ex hl c x
    have hb' := coord_prefix ex.pre hkb
    constructor
    · intro hm
      have : (s'.tab.coord b, c, x) ∈ l.map (fun e => (s'.tab.coord e.1, e.2.1, e.2.2)) := List.mem_map.mpr ⟨_, hm, rfl⟩
      rw [hl, List.mem_filterMap] at this
      obtain ⟨x', hx', e⟩ := this
      cases hs : f x' with
      | none => rw [hs] at e; cases e
      | some r =>
        rw [hs, hb'] at e
        simp only [Option.map_some, Option.some.injEq, Prod.mk.injEq] at e
        obtain ⟨e1, e2, e3⟩ := e
        subst e3
        exact ⟨hx', by rw [hs, ← e1, ← e2]⟩
    · rintro ⟨hx, hf⟩
      have : (some q, c, x) ∈ (st.cfg.acts p.2.2).filterMap (fun a => (f a).map (fun r => (some r.1, r.2, a))) := by
        rw [List.mem_filterMap]; exact ⟨x, hx, by rw [hf]; rfl⟩
      rw [← hl, List.mem_map] at this
      obtain ⟨⟨j', c'', a''⟩, hj, e⟩ := this
      simp only [Prod.mk.injEq] at e
      obtain ⟨e1, rfl, rfl⟩ := e
      rwa [coord_inj ix.tab e1 hb'] at hj
  have ms := mem _ s1 l1 h2 h3 h4
  have ml := mem _ s2 l2 g2 g3 g4
  have td := targets_distinct inv h.1 hd p
  obtain ⟨t1, t2, t3⟩ := trueCostLoop_ok inv.x hkb _ td
  refine ⟨s1, l1, s2, l2, h1, g1, ?_, ?_, ?_⟩
  · intro c
    rw [hcost, t1]
    simp only [ms]
  · rw [hcost, t2]
    simp only [ms, ml]
    constructor
    · rintro ⟨x, hx, ⟨c, hc⟩, hn⟩
      refine ⟨⟨c, x, hx, hc⟩, ?_⟩
      rintro ⟨c', x', hx', hs'⟩
      by_cases e : x = x'
      · rw [← e, hn] at hs'; cases hs'
      · have tx : st.cfg.target p x = q := by
          unfold lazySuccAct at hc; split_ifs at hc; simp only [Option.some.injEq, Prod.mk.injEq] at hc; exact hc.1
        have tx' : st.cfg.target p x' = q := by
          have := (lazy_of_succ hs').1
          unfold lazySuccAct at this; split_ifs at this; simp only [Option.some.injEq, Prod.mk.injEq] at this; exact this.1
        exact e (by
          obtain ⟨i1, hi1, e1⟩ := List.mem_iff_getElem.mp hx
          obtain ⟨i2, hi2, e2⟩ := List.mem_iff_getElem.mp hx'
          have pg := List.pairwise_iff_getElem.mp td
          rcases Nat.lt_trichotomy i1 i2 with l | l | l
          · exact absurd (by rw [e1, e2, tx, tx']) (pg i1 i2 hi1 hi2 l)
          · subst l; exact e1.symm.trans e2
          · exact absurd (by rw [e1, e2, tx, tx']) (pg i2 i1 hi2 hi1 l))
    · rintro ⟨⟨c, x, hx, hc⟩, hno⟩
      refine ⟨x, hx, ⟨c, hc⟩, ?_⟩
      cases hs : st.cfg.succAct p x with
      | none => rfl
      | some r =>
        have := (lazy_of_succ (q := r.1) (n := r.2) hs).1
        rw [hc] at this
        simp only [Option.some.injEq, Prod.mk.injEq] at this
        exact absurd ⟨r.2, x, hx, by rw [hs, this.1]⟩ hno
  · rw [hcost, t3]
    simp only [ml]
    constructor
    · rintro hall ⟨c, x, hx, hc⟩; exact hall x hx c hc
    · intro hno x hx c hc; exact hno ⟨c, x, hx, hc⟩

/-! ## C54: the actions of a path -/

/-- the choice of the last of the cheapest -/
def Best (t : Nat) (l : List (Nat × Nat × XAct)) (e : Nat × Nat × XAct) : Prop :=
  e ∈ l ∧ e.1 = t ∧ ∀ e' ∈ l, e'.1 = t → e.2.1 ≤ e'.2.1

theorem pick_fold (t : Nat) : ∀ (l : List (Nat × Nat × XAct)) (b : Option (Nat × Nat × XAct)), (∀ e ∈ l, e.2.1 < INFINITECOST) →
    (∀ e, b = some e → e.1 = t ∧ e.2.1 < INFINITECOST) →
    match l.foldl (pickStep t) b with
    | none => b = none ∧ ∀ e ∈ l, e.1 ≠ t
    | some e => (b = some e ∨ e ∈ l) ∧ e.1 = t ∧ (∀ e' ∈ l, e'.1 = t → e.2.1 ≤ e'.2.1) ∧ ∀ e', b = some e' → e.2.1 ≤ e'.2.1 := by
  intro l
  induction l with
  | nil =>
    intro b _ hb
    cases b with
    | none => simp
    | some e => rw [List.foldl_nil]; exact ⟨.inl rfl, (hb e rfl).1, by simp, by intro e' h; cases h; exact Nat.le_refl _⟩
  | cons a l ih =>
    intro b hl hb
    rw [List.foldl_cons]
    have hl' : ∀ e ∈ l, e.2.1 < INFINITECOST := fun e he => hl e (by simp [he])
    by_cases hc : a.1 = t ∧ a.2.1 ≤ bestCost b
    · rw [pickStep, if_pos hc]
      have := ih (some a) hl' (by intro e he; cases he; exact ⟨hc.1, hl a (by simp)⟩)
      split at this
      next => cases this.1
      next e he =>
        obtain ⟨h1, h2, h3, h4⟩ := this
        refine ⟨.inr ?_, h2, ?_, ?_⟩
        · rcases h1 with h1 | h1
          · cases h1; simp
          · simp [h1]
        · intro e' he' ht
          rcases List.mem_cons.mp he' with rfl | he'
          · exact h4 _ rfl
          · exact h3 e' he' ht
        · intro e' hb'
          rw [hb'] at hc
          exact Nat.le_trans (h4 a rfl) hc.2
    · rw [pickStep, if_neg hc]
      have := ih b hl' hb
      split at this
      next he =>
        obtain ⟨h1, h2⟩ := this
        refine ⟨h1, ?_⟩
        intro e he
        rcases List.mem_cons.mp he with rfl | he
        · intro ht
          rw [h1] at hc
          exact hc ⟨ht, Nat.le_of_lt (hl _ (by simp))⟩
        · exact h2 e he
      next e he =>
        obtain ⟨h1, h2, h3, h4⟩ := this
        refine ⟨?_, h2, ?_, h4⟩
        · rcases h1 with h1 | h1
          · exact .inl h1
          · exact .inr (by simp [h1])
        · intro e' he' ht
          rcases List.mem_cons.mp he' with rfl | he'
          · cases hbb : b with
            | none => 
              rw [hbb] at hc
              exact absurd ⟨ht, Nat.le_of_lt (hl _ (by simp))⟩ hc
            | some b' =>
              rw [hbb] at hc
              have h5 := h4 b' hbb
              have : b'.2.1 < e'.2.1 := by
                by_contra hlt
                exact hc ⟨ht, Nat.le_of_not_lt hlt⟩
              omega
          · exact h3 e' he' ht

theorem pick_spec (t : Nat) {l : List (Nat × Nat × XAct)} (hl : ∀ e ∈ l, e.2.1 < INFINITECOST) :
    (∀ e, pick t l = some e → Best t l e) ∧ (pick t l = none ↔ ∀ e ∈ l, e.1 ≠ t) := by
  have := pick_fold t l none hl (by simp)
  unfold pick
  split at this
  next he =>
    rw [he]
    exact ⟨by simp, by simp; intro a b c h; exact this.2 _ h⟩
  next e he =>
    rw [he]
    obtain ⟨h1, h2, h3, -⟩ := this
    have h1 : e ∈ l := by rcases h1 with h | h; · cases h
                          · exact h
    refine ⟨by intro e' he'; cases he'; exact ⟨h1, h2, h3⟩, ?_⟩
    constructor
    · intro h; cases h
    · intro h; exact absurd h2 (h e h1)

theorem succs_cost_lt (i : SInv s st) {id : Nat} {st' : XEnv} {l : List (Nat × Nat × XAct)} (h : st.getSuccs id = .ok (st', l)) :
    ∀ e ∈ l, e.2.1 < INFINITECOST := by
  by_cases hg : id = st.goalId
  · subst hg
    unfold getSuccs at h
    rw [succsBy_goal] at h; cases h; simp
  · cases hk : st.tab.coord id with
    | none => unfold getSuccs succsBy getCoord at h; rw [if_neg hg, hk] at h; cases h
    | some k =>
      obtain ⟨st1, l1, h1, -, -, h4⟩ := succsBy_ok i (succAct_inRange i.stc) hg hk
      have := h1.symm.trans h
      cases this
      intro e he
      have : (st'.tab.coord e.1, e.2.1, e.2.2) ∈ l.map (fun e => (st'.tab.coord e.1, e.2.1, e.2.2)) := List.mem_map.mpr ⟨_, he, rfl⟩
      rw [h4, List.mem_filterMap] at this
      obtain ⟨a', -, e'⟩ := this
      cases hs : st.cfg.succAct k a' with
      | none => rw [hs] at e'; cases e'
      | some r =>
        rw [hs] at e'
        simp only [Option.map_some, Option.some.injEq, Prod.mk.injEq] at e'
        rw [← e'.2.1]
        unfold succAct at hs
        split_ifs at hs with h1 h2
        cases hs
        exact Nat.lt_of_not_le h2

/-- the actions `as` connect the states of a path: one per transition, each a cheapest action among those GetSuccs reports for the transition -/
def Drives (st : XEnv) : List Nat → List XAct → Prop
  | a :: b :: l, x :: as => (∃ st' r, st.getSuccs a = .ok (st', r) ∧ ∃ c, Best b r (b, c, x)) ∧ Drives st (b :: l) as
  | _ :: _ :: _, [] => False
  | _, as => as = []

/-- GetSuccs of an existing state gives, in an environment that grew, the same answer for existing states -/
theorem best_stable (i : SInv s st) {st1 : XEnv} (x1 : XInv st1) (e1 : Ext st st1) {a b : Nat} {p q : XKey} (ha : st.tab.coord a = some p) (hb : st.tab.coord b = some q)
    {sa sb : XEnv} {r r' : List (Nat × Nat × XAct)} (h : st1.getSuccs a = .ok (sa, r)) (h' : st.getSuccs a = .ok (sb, r')) (c : Nat) (x : XAct) :
    (b, c, x) ∈ r ↔ (b, c, x) ∈ r' := by
  by_cases hg : a = st.goalId
  · have hg1 : a = st1.goalId := by rw [e1.goalId]; exact hg
    unfold getSuccs at h h'
    rw [hg, succsBy_goal] at h'
    rw [hg1, succsBy_goal] at h
    cases h; cases h'; rfl
  · have hg1 : a ≠ st1.goalId := by rw [e1.goalId]; exact hg
    have i1 := i.ext e1 x1
    obtain ⟨s1, l1, h1, h2, h3, h4⟩ := succsBy_ok i1 (succAct_inRange i1.stc) hg1 (coord_prefix e1.pre ha)
    obtain ⟨s2, l2, g1, g2, g3, g4⟩ := succsBy_ok i (succAct_inRange i.stc) hg ha
    have := h1.symm.trans h; cases this
    have := g1.symm.trans h'; cases this
    rw [e1.cfg] at h4
    have hb1 := coord_prefix h3.pre (coord_prefix e1.pre hb)
    have hb2 := coord_prefix g3.pre hb
    constructor
    · intro hm
      obtain ⟨q', hq', hs, hl⟩ := loops_sub h4 g4 hm
      rw [hb1] at hq'; cases hq'
      obtain ⟨j, hj, hjq⟩ := hl _ hs
      rwa [coord_inj g2.tab hjq hb2] at hj
    · intro hm
      obtain ⟨q', hq', hs, hl⟩ := loops_sub g4 h4 hm
      rw [hb2] at hq'; cases hq'
      obtain ⟨j, hj, hjq⟩ := hl _ hs
      rwa [coord_inj h2.tab hjq hb1] at hj

theorem drives_stable (i : SInv s st) {st1 : XEnv} (x1 : XInv st1) (e1 : Ext st st1) : ∀ (l : List Nat) (as : List XAct),
    (∀ id ∈ l, ∃ k, st.getCoord id = .ok k) → Drives st1 l as → Drives st l as := by
  intro l
  induction l with
  | nil => intro as _ h; unfold Drives at h ⊢; exact h
  | cons a l ih =>
    intro as hl h
    cases l with
    | nil => unfold Drives at h ⊢; exact h
    | cons b l =>
      cases as with
      | nil => unfold Drives at h; exact h.elim
      | cons x as =>
        unfold Drives at h ⊢
        obtain ⟨⟨st', r, h1, c, hb1, hb2, hb3⟩, hd⟩ := h
        obtain ⟨p, hp⟩ := hl a (by simp)
        obtain ⟨q, hq⟩ := hl b (by simp)
        obtain ⟨st2, r2, h2⟩ := succs_ok i ⟨p, hp⟩
        have st' := best_stable i x1 e1 (getCoord_ok.mp hp) (getCoord_ok.mp hq) h1 h2
        refine ⟨⟨st2, r2, h2, c, (st' c x).mp hb1, rfl, ?_⟩, ih as (fun id hid => hl id (by simp [List.mem_cons.mp hid])) hd⟩
        rintro ⟨j, c', x'⟩ he' ht
        simp only at ht
        subst ht
        exact hb3 _ ((st' c' x').mpr he') rfl

/-- **C54** GetActionsFromStateIDPath gives one action per transition, each a cheapest one among those GetSuccs reports for this transition. -/
theorem path_actions (h : Hist s ops st) {l : List Nat} (hl : ∀ id ∈ l, ∃ k, st.getCoord id = .ok k) {st' : XEnv} {as : List XAct}
    (hr : st.pathActions l = .ok (st', as)) : Drives st l as := by
  have i := (hist_inv h).1
  clear h
  induction l generalizing st st' as with
  | nil => unfold pathActions at hr; cases hr; unfold Drives; rfl
  | cons a l ih =>
    cases l with
    | nil => unfold pathActions at hr; cases hr; unfold Drives; rfl
    | cons b l =>
      unfold pathActions at hr
      split at hr
      next => cases hr
      next st1 r h1 =>
        split at hr
        next => cases hr
        next e he =>
          split at hr
          next => cases hr
          next st2 as2 h2 =>
            cases hr
            obtain ⟨i1, e1⟩ := succsBy_ext i (succAct_inRange i.stc) h1
            have hb := (pick_spec b (succs_cost_lt i h1)).1 e he
            unfold Drives
            refine ⟨⟨st1, r, h1, e.2.1, ?_⟩, ?_⟩
            · have : (b, e.2.1, e.2.2) = e := by rw [← hb.2.1]
              rw [this]; exact hb
            · refine drives_stable i i1.x e1 _ _ (fun id hid => hl id (by simp [List.mem_cons.mp hid])) ?_
              refine ih (fun id hid => ?_) h2 i1
              obtain ⟨k, hk⟩ := hl id (by simp [List.mem_cons.mp hid])
              exact ⟨k, getCoord_ok.mpr (coord_prefix e1.pre (getCoord_ok.mp hk))⟩

/-- the consecutive IDs of a path are connected: GetSuccs of one reports the next -/
def Connected (st : XEnv) : List Nat → Prop
  | a :: b :: l => (∃ st' r c x, st.getSuccs a = .ok (st', r) ∧ (b, c, x) ∈ r) ∧ Connected st (b :: l)
  | _ => True

/-- **C54** GetActionsFromStateIDPath succeeds exactly for the paths whose consecutive IDs are connected; otherwise it raises an exception. -/
theorem path_actions_total (h : Hist s ops st) {l : List Nat} (hl : ∀ id ∈ l, ∃ k, st.getCoord id = .ok k) :
    ((∃ st' as, st.pathActions l = .ok (st', as)) ↔ Connected st l) ∧ (¬ Connected st l → st.pathActions l = .error .noTransition) := by
  have i := (hist_inv h).1
  clear h
  have main : (∃ st' as, st.pathActions l = .ok (st', as)) ↔ Connected st l := by
    induction l generalizing st with
    | nil => unfold pathActions Connected; simp
    | cons a l ih =>
      cases l with
      | nil => unfold pathActions Connected; simp
      | cons b l =>
        unfold pathActions Connected
        obtain ⟨st1, r, h1⟩ := succs_ok i (hl a (by simp))
        rw [h1]
        obtain ⟨i1, e1⟩ := succsBy_ext i (succAct_inRange i.stc) h1
        have hl1 : ∀ id ∈ b :: l, ∃ k, st1.getCoord id = .ok k := by
          intro id hid
          obtain ⟨k, hk⟩ := hl id (by simp [List.mem_cons.mp hid])
          exact ⟨k, getCoord_ok.mpr (coord_prefix e1.pre (getCoord_ok.mp hk))⟩
        have ih1 := ih hl1 i1
        have hconn : ∀ l', (∀ id ∈ l', ∃ k, st.getCoord id = .ok k) → (Connected st1 l' ↔ Connected st l') := by
          intro l'
          induction l' with
          | nil => intro _; unfold Connected; simp
          | cons a' l' ih' =>
            intro hl'
            cases l' with
            | nil => unfold Connected; simp
            | cons b' l' =>
              unfold Connected
              rw [ih' (fun id hid => hl' id (by simp [List.mem_cons.mp hid]))]
              obtain ⟨p, hp⟩ := hl' a' (by simp)
              obtain ⟨q, hq⟩ := hl' b' (by simp)
              obtain ⟨st2, r2, h2⟩ := succs_ok i ⟨p, hp⟩
              obtain ⟨st3, r3, h3⟩ := succs_ok i1 ⟨p, getCoord_ok.mpr (coord_prefix e1.pre (getCoord_ok.mp hp))⟩
              have bs := best_stable i i1.x e1 (getCoord_ok.mp hp) (getCoord_ok.mp hq) h3 h2
              rw [h2, h3]
              constructor
              · rintro ⟨⟨_, _, c, x, e, hm⟩, hc⟩
                cases e
                exact ⟨⟨_, _, c, x, rfl, (bs c x).mp hm⟩, hc⟩
              · rintro ⟨⟨_, _, c, x, e, hm⟩, hc⟩
                cases e
                exact ⟨⟨_, _, c, x, rfl, (bs c x).mpr hm⟩, hc⟩
        rw [← hconn (b :: l) (fun id hid => hl id (by simp [List.mem_cons.mp hid])), ← ih1]
        have ps := pick_spec b (succs_cost_lt i h1)
        constructor
        · rintro ⟨st', as, hok⟩
          dsimp only at hok
          split at hok
          next => cases hok
          next e he =>
            have hb := ps.1 e he
            split at hok
            next => cases hok
            next st2 as2 h2 =>
              refine ⟨⟨st1, r, e.2.1, e.2.2, rfl, ?_⟩, st2, as2, h2⟩
              have : (b, e.2.1, e.2.2) = e := by rw [← hb.2.1]
              rw [this]; exact hb.1
        · rintro ⟨⟨_, _, c, x, e, hm⟩, st2, as2, h2⟩
          cases e
          dsimp only
          cases hpk : pick b r with
          | none => exact absurd rfl (ps.2.mp hpk _ hm)
          | some e => 
            dsimp only
            rw [h2]
            exact ⟨_, _, rfl⟩
  refine ⟨main, fun hn => ?_⟩
  cases hp : st.pathActions l with
  | ok r => exact absurd (main.mp ⟨r.1, r.2, hp⟩) hn
  | error e => rw [pathActions_err l i hl hp]

end Sbpl.XYTProps
