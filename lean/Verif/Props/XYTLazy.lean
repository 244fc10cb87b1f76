import Verif.Model.XYTLazy
import Verif.Props.XYTARA
import Verif.Props.XYTMore
import Verif.Props.LazyARA
/-!
# Lazy ARA* on `EnvironmentNAVXYTHETALAT`, end to end (C177)
-/

namespace Sbpl.XYTLazyProps
open Sbpl XSpec XEnv XCfg GraphSpec LazySpec XHeurProps XYTProps XYTARAProps

variable {s : Setup} {c : XCfg} {num : XKey → Nat} {den : Nat → Option XKey} {hg hs : XKey → XKey → Int} {hgp hsp : Nat → Nat} {vel : ℚ} {gl : Nat}

/-- a cost that GetTrueCost returns is that of a transition -/
theorem trueLoop_sound {p q : XKey} {n : Nat} : ∀ {as : List XAct}, c.trueLoop p q as = (n : Int) → ∃ a ∈ as, c.succAct p a = some (q, n)
  | [], h => by simp only [XCfg.trueLoop] at h; omega
  | a :: as, h => by
    simp only [XCfg.trueLoop] at h
    split_ifs at h with h1 h2 h3
    · obtain ⟨x, hx, e⟩ := trueLoop_sound h
      exact ⟨x, List.mem_cons_of_mem _ hx, e⟩
    · obtain ⟨x, hx, e⟩ := trueLoop_sound h
      exact ⟨x, List.mem_cons_of_mem _ hx, e⟩
    · refine ⟨a, List.mem_cons_self, ?_⟩
      unfold succAct
      rw [if_neg h1, if_neg h3]
      have : c.actionCost p.1 p.2.1 a = n := by exact_mod_cast h
      rw [this, not_not.mp h2]

/-- if no two actions lead to the same state, it finds every transition -/
theorem trueLoop_complete {p q : XKey} {n : Nat} : ∀ {as : List XAct}, as.Pairwise (fun a b => c.target p a ≠ c.target p b) →
    ∀ a ∈ as, c.succAct p a = some (q, n) → c.trueLoop p q as = (n : Int)
  | [], _, a, ha, _ => by cases ha
  | b :: as, pw, a, ha, h => by
    obtain ⟨p1, p2⟩ := List.pairwise_cons.mp pw
    have h' := h
    unfold succAct at h'
    split_ifs at h' with k1 k2
    simp only [Option.some.injEq, Prod.mk.injEq] at h'
    simp only [XCfg.trueLoop]
    rcases List.mem_cons.mp ha with rfl | ha
    · rw [if_neg k1, if_neg (not_not.mpr h'.1), if_neg k2, h'.2]
    · have hne : c.target p b ≠ q := by rw [← h'.1]; exact p1 a ha
      rw [if_pos hne]
      split_ifs
      · exact trueLoop_complete p2 a ha h
      · exact trueLoop_complete p2 a ha h

theorem mem_lazy (N : XNumbering s num den) (stc : Static s c) {i j lc : Nat} {f : Bool} (h : (j, lc, f) ∈ (xytLEnv c num den gl hg hs hgp hsp).succs i) :
    f = false ∧ i ≠ gl ∧ ∃ p q a, den i = some p ∧ den j = some q ∧ a ∈ c.acts p.2.2 ∧ c.lazySuccAct p a = some (q, lc) := by
  simp only [xytLEnv] at h
  split_ifs at h with hi
  · cases h
  · cases hp : den i with
    | none => rw [hp] at h; cases h
    | some p =>
      rw [hp] at h
      simp only [List.mem_filterMap] at h
      obtain ⟨a, ha, h⟩ := h
      cases hl : c.lazySuccAct p a with
      | none => rw [hl] at h; cases h
      | some r =>
        rw [hl] at h
        simp only [Option.map_some, Option.some.injEq, Prod.mk.injEq] at h
        obtain ⟨rfl, rfl, rfl⟩ := h
        refine ⟨rfl, hi, p, r.1, a, rfl, N.left _ (stc.inRange.mp (lazySuccAct_inRange stc _ _ _ hl)), ha, hl⟩

/-- every edge that the planner finds to exist is a transition -/
theorem edge_sound (stc : Static s c) (ok : SetupOk s) (N : XNumbering s num den) {i j n : Nat}
    (h : LazySpec.Edge (xytLEnv c num den gl hg hs hgp hsp) i j n) :
    i ≠ gl ∧ ∃ p q m, den i = some p ∧ den j = some q ∧ XSpec.Edge s c.grid m p q n := by
  rcases h with h | ⟨lc, h, ht, -⟩
  · cases (mem_lazy N stc h).1
  · obtain ⟨-, h1, p, q, a, h2, h3, -, -⟩ := mem_lazy N stc h
    simp only [xytLEnv, h2, h3] at ht
    obtain ⟨m, e⟩ := (act_edge stc ok (N.right _ _ h2).2).mp (trueLoop_sound ht)
    exact ⟨h1, p, q, m, h2, h3, e⟩

/-- and conversely, if no two primitives of a heading have the same end -/
theorem edge_iff {st : XEnv} (inv : SInv s st) (ok : SetupOk s) (N : XNumbering s num den) (hd : EndsDistinct s) (hm : CostAtLeast s 1) {i j n : Nat} :
    LazySpec.Edge (xytLEnv st.cfg num den gl hg hs hgp hsp) i j n ↔ (j, n) ∈ (xytPEnv st.cfg num den hg hs).succs gl i := by
  rw [succs_edge inv.stc ok N]
  constructor
  · exact edge_sound inv.stc ok N
  · rintro ⟨h1, p, q, m, h2, h3, e⟩
    obtain ⟨a, ha, hs'⟩ := (act_edge inv.stc ok (N.right _ _ h2).2).mpr ⟨m, e⟩
    refine .inr ⟨a.cost, ?_, ?_, edge_cost_ge hm e⟩
    · simp only [xytLEnv, if_neg h1, h2]
      rw [List.mem_filterMap]
      exact ⟨a, ha, by rw [(lazy_of_succ hs').1]; simp [(N.right _ _ h3).1]⟩
    · simp only [xytLEnv, h2, h3]
      exact trueLoop_complete (targets_distinct inv ok hd p) a ha hs'

theorem lazy_lower {st : XEnv} (inv : SInv s st) (ok : SetupOk s) (N : XNumbering s num den) (hd : EndsDistinct s) :
    LazyLower (xytLEnv st.cfg num den gl hg hs hgp hsp) := by
  intro i j lc h h0
  obtain ⟨-, h1, p, q, a, h2, h3, ha, hl⟩ := mem_lazy N inv.stc h
  simp only [xytLEnv, h2, h3] at h0 ⊢
  have td := targets_distinct inv ok hd p
  generalize hv : st.cfg.trueLoop p q (st.cfg.acts p.2.2) = v at *
  obtain ⟨n, rfl⟩ := Int.eq_ofNat_of_zero_le (Int.le_of_lt h0)
  obtain ⟨b, hb, hs'⟩ := trueLoop_sound hv
  have hl' := lazy_of_succ hs'
  have ta : st.cfg.target p a = q := by
    unfold lazySuccAct at hl; split_ifs at hl; simp only [Option.some.injEq, Prod.mk.injEq] at hl; exact hl.1
  have tb : st.cfg.target p b = q := by
    have := hl'.1
    unfold lazySuccAct at this; split_ifs at this; simp only [Option.some.injEq, Prod.mk.injEq] at this; exact this.1
  have hab : a = b := by
    obtain ⟨i1, hi1, e1⟩ := List.mem_iff_getElem.mp ha
    obtain ⟨i2, hi2, e2⟩ := List.mem_iff_getElem.mp hb
    have pg := List.pairwise_iff_getElem.mp td
    rcases Nat.lt_trichotomy i1 i2 with l | l | l
    · exact absurd (by rw [e1, e2, ta, tb]) (pg i1 i2 hi1 hi2 l)
    · subst l; exact e1.symm.trans e2
    · exact absurd (by rw [e1, e2, ta, tb]) (pg i2 i1 hi2 hi1 l)
  subst hab
  rw [hl] at hl'
  simp only [Option.some.injEq, Prod.mk.injEq, true_and] at hl'
  omega

theorem xytL_ok (stc : Static s c) (ok : SetupOk s) (N : XNumbering s num den) (hm : CostAtLeast s 1) : LEnvOk (xytLEnv c num den gl hg hs hgp hsp) := by
  have pos : ∀ {t : Int}, 0 ≤ t → t < s.T → ∀ a ∈ c.acts t, 1 ≤ a.cost := by
    intro t t0 tT a ha
    obtain ⟨m, i, h1, rfl⟩ := (mem_acts stc ok t0 tT).mp ha
    exact hm m (primsOf_mem h1).1
  constructor
  · intro i j lc f h
    obtain ⟨-, -, p, q, a, h2, -, ha, hl⟩ := mem_lazy N stc h
    have hr := (N.right _ _ h2).2
    unfold lazySuccAct at hl
    split_ifs at hl
    simp only [Option.some.injEq, Prod.mk.injEq] at hl
    rw [← hl.2]
    exact pos hr.2.1 hr.2.2 a ha
  · intro j i lc f h
    simp only [xytLEnv] at h
    cases hq : den j with
    | none => rw [hq] at h; cases h
    | some q =>
      rw [hq] at h
      simp only [List.mem_filterMap] at h
      obtain ⟨a, ha, h⟩ := h
      obtain ⟨u, u0, uT, hu, -, -⟩ := (mem_preds stc ok).mp ha
      rw [stc.T] at uT
      unfold lazyPredAct at h
      split_ifs at h
      · cases h
      · simp only [Option.map_some, Option.some.injEq, Prod.mk.injEq] at h
        rw [← h.2.1]
        exact pos u0 uT a hu

/-! ## Walks and paths -/

theorem rwalk_of_walk {env : LEnv} {succs : Nat → List (Nat × Nat)} (h : ∀ i j n, (j, n) ∈ succs i → LazySpec.Edge env i j n) {a b n : Nat}
    (w : Walk succs a b n) : RWalk (LazySpec.Edge env) a b n := by
  induction w with
  | nil => exact .nil
  | snoc _ e ih => exact .snoc ih (h _ _ _ e)

/-- with lower bounds listed, the sum of the smallest listed costs is at most the real cost -/
theorem cheap_le {env : LEnv} (low : LazyLower env) {l : List Nat} {k : Nat} (h : RPath (LazySpec.Edge env) l k) :
    ∀ {n : Nat}, RPath (CheapListed env) l n → n ≤ k := by
  induction h with
  | single i => intro n h; cases h; exact Nat.le_refl _
  | @cons i j c k l e _ ih =>
    intro n h
    cases h with
    | @cons _ _ c' n' _ hc h' =>
      have := ih h'
      have hcc : c' ≤ c := by
        rcases e with e | ⟨lc, e, ht, h0⟩
        · exact hc.1 c true e
        · have h1 := hc.1 lc false e
          have h2 := low i j lc e (by omega)
          omega
      omega

theorem lpath_of_rpath (stc : Static s c) (ok : SetupOk s) (N : XNumbering s num den) {l : List Nat} {n : Nat}
    (h : RPath (LazySpec.Edge (xytLEnv c num den gl hg hs hgp hsp)) l n) (hd : ∀ a, l.head? = some a → ∃ p, den a = some p) :
    ∃ ks, l.map den = ks.map some ∧ LPath s c.grid ks n := by
  induction h with
  | single i =>
    obtain ⟨p, hp⟩ := hd i rfl
    exact ⟨[p], by simp [hp], .single p⟩
  | @cons i j m n l hm hl ih =>
    obtain ⟨_, p, q, mm, hp, hq, e⟩ := edge_sound stc ok N hm
    obtain ⟨ks, h1, h2⟩ := ih (by intro a ha; simp at ha; subst ha; exact ⟨q, hq⟩)
    cases ks with
    | nil => simp at h1
    | cons k ks =>
      simp only [List.map_cons, List.cons.injEq] at h1
      rw [hq] at h1
      have : q = k := Option.some.inj h1.1
      subst this
      refine ⟨p :: q :: ks, ?_, .cons mm e h2⟩
      simp only [List.map_cons, hp, hq, h1.2]

theorem ends_decode {l : List Nat} {ks : List XKey} {a b : Nat} {p q : XKey} (e : l.map den = ks.map some) (h1 : l.head? = some a) (h2 : l.getLast? = some b)
    (hp : den a = some p) (hq : den b = some q) : ks.head? = some p ∧ ks.getLast? = some q := by
  constructor
  · have := congrArg List.head? e
    rw [List.head?_map, List.head?_map, h1] at this
    simp only [Option.map_some, hp] at this
    cases hk : ks.head? with
    | none => rw [hk] at this; cases this
    | some k => rw [hk] at this; simpa using this.symm
  · have := congrArg List.getLast? e
    rw [List.getLast?_map, List.getLast?_map, h2] at this
    simp only [Option.map_some, hq] at this
    cases hk : ks.getLast? with
    | none => rw [hk] at this; cases this
    | some k => rw [hk] at this; simpa using this.symm

section
variable {wf : (LazyElem → Nat) → List LazyElem → Prop} {Q : LQueue} {env0 : LEnv} {D ie fe de : Nat} {fs : Bool}
  {ops : List LazyARA.Op} {st st' : LazyARA} {bs : List Nat} {res : LazyARA.Result} {a b : Nat} {p q : XKey} {xops : List XEnv.Op} {stx : XEnv}

/-- **C177** Lazy ARA* (forward) on the lattice, after any history of calls to planner and environment: if no pass was ended by the clock, the states of the path
returned are joined by collision-free transitions (in the sense of C50) from the start to the goal - even where two primitives have the same end.  If no two
primitives of a heading do, the reported cost is at most the real cost of the path. -/
theorem lazy_xyt_path (hQ : QueueOk Q wf) (hok : LazyProps.HistOk true env0 (ops ++ [.replan bs]))
    (hrun : (LazyARA.init env0 Q true D ie fe de fs).run ops = some st) (hid : ids ops (none, none) = (some a, some b))
    (hr : st.replan bs = .ok (st', res)) (hf : res.found = true) (hcut : ∀ x ∈ res.passes, x.out = false)
    (hx : Hist s xops stx) (N : XNumbering s num den) (hmap : lastEnv env0 ops = xytLEnv stx.cfg num den b hg hs hgp hsp) (hp : den a = some p) (hq : den b = some q) :
    ∃ ks n, res.path.map den = ks.map some ∧ ks.head? = some p ∧ ks.getLast? = some q ∧ LPath s (costs s xops) ks n ∧ (EndsDistinct s → res.cost ≤ n) := by
  obtain ⟨ix, eg, -, -⟩ := hist_inv hx
  have ok := hx.1
  rw [← eg]
  obtain ⟨h1, h2, -, h3, -⟩ := LazyProps.path_sound hQ hok hrun hid hr hf
  obtain ⟨k, hk, hlow⟩ := h3 hcut
  rw [hmap] at hk hlow
  obtain ⟨ks, e1, e2⟩ := lpath_of_rpath ix.stc ok N hk (by intro a' ha'; rw [h1] at ha'; cases ha'; exact ⟨p, hp⟩)
  obtain ⟨e3, e4⟩ := ends_decode e1 h1 h2 hp hq
  exact ⟨ks, k, e1, e3, e4, e2, fun hd => hlow (lazy_lower ix ok N hd)⟩

/-- **C177** With initial eps = e / D, no two primitives of a heading with the same end, and no pass ended by the clock: if some walk over collision-free transitions
of cost `n` leads from start to goal, a path is found (for costs below INFINITECOST divided by the factor), of real cost at most
(eps + (k * eps + 1) / m) * n, where `m` is the cost of the cheapest primitive and `k` the slack of C58. -/
theorem lazy_xyt_bound (hQ : QueueOk Q wf) (hok : LazyProps.HistOk true env0 (ops ++ [.replan bs]))
    (hrun : (LazyARA.init env0 Q true D ie fe de fs).run ops = some st) (hid : ids ops (none, none) = (some a, some b))
    (hr : st.replan bs = .ok (st', res)) (hbs : bs ≠ []) (hcut : ∀ x ∈ res.passes, x.out = false) (hD : 0 < D)
    (hx : Hist s xops stx) (N : XNumbering s num den) (hmap : lastEnv env0 ops = xytLEnv stx.cfg num den b hg hs hgp hsp) (hp : den a = some p) (hq : den b = some q)
    (hd : EndsDistinct s) (hv : 0 < vel) (hfast : NotTooFast s vel) (hw : Followable s vel) {m k : Nat} (hm1 : 1 ≤ m) (hm : CostAtLeast s m) (hk : Slack vel k)
    (hG : ∀ g, InRange s g → HeurFrom s vel (costs s xops) g (hg g)) {e n : Nat} (he : (lastParams (ie, fe, de, fs) ops).1 = e) (he1 : D ≤ e)
    (hpre : e * hgp a / D < INFINITECOST) (w : LWalk s (costs s xops) p q n) :
    (res.found = true → ∃ ks n', res.path.map den = ks.map some ∧ ks.head? = some p ∧ ks.getLast? = some q ∧ LPath s (costs s xops) ks n' ∧
      res.cost ≤ n' ∧ D * m * n' ≤ (e * m + e * k + D) * n) ∧
    ((e * m + e * k + D) * n < D * m * INFINITECOST → res.found = true) := by
  obtain ⟨ix, eg, -, -⟩ := hist_inv hx
  have ok := hx.1
  rw [← eg] at hG w ⊢
  have hm' : CostAtLeast s 1 := fun x hx => Nat.le_trans hm1 (hm x hx)
  have hE := fun i j n => (edge_iff (gl := b) (hg := hg) (hs := hs) (hgp := hgp) (hsp := hsp) ix ok N hd hm' (i := i) (j := j) (n := n))
  obtain ⟨n1, hn1, w1⟩ := walk_of_lwalk (hg := hg) (hs := hs) ix.stc ok N hp hq w
  have hh := xyt_heur (hs := hg) ix.stc ok N hv hfast hw hm hk hG hG (D := D) (e := e) hD true
  simp only [PlannerSpec.HeurUpTo, if_true] at hh
  obtain ⟨h0, hstep⟩ := hh b
  have hstep' : LazySpec.HeurUpTo (lastEnv env0 ops) D e (e * m + e * k + D) (D * m) := by
    intro i j c hc
    rw [hmap] at hc ⊢
    exact hstep i j c ((hE _ _ _).mp hc)
  obtain ⟨r1, r2⟩ := LazyProps.bound_general hQ hok hrun hid hr hbs hcut (by rw [hmap]; exact lazy_lower ix ok N hd) he (by nlinarith) hstep'
    (by rw [hmap]; exact h0) (by rw [hmap]; exact hpre)
  have wR : RWalk (LazySpec.Edge (lastEnv env0 ops)) a b n1 := by
    rw [hmap]; exact rwalk_of_walk (fun _ _ _ h => (hE _ _ _).mpr h) w1
  have hle : (e * m + e * k + D) * n1 ≤ (e * m + e * k + D) * n := Nat.mul_le_mul_left _ hn1
  refine ⟨?_, ?_⟩
  · intro hf
    obtain ⟨k', hk', hb⟩ := r1 hf
    obtain ⟨h1, h2, hch, -⟩ := LazyProps.path_sound hQ hok hrun hid hr hf
    have hb := hb n1 wR
    rw [hmap] at hk' hch
    have hcost := cheap_le (lazy_lower ix ok N hd) hk' hch
    obtain ⟨ks, e1, e2⟩ := lpath_of_rpath ix.stc ok N hk' (by intro a' ha'; rw [h1] at ha'; cases ha'; exact ⟨p, hp⟩)
    obtain ⟨e3, e4⟩ := ends_decode e1 h1 h2 hp hq
    exact ⟨ks, k', e1, e3, e4, e2, hcost, by omega⟩
  · intro hlt
    cases hf : res.found with
    | true => rfl
    | false =>
      have := (r2 hf).2 n1 wR
      omega

/-- **C177** For whole nominal velocities the factor is eps itself (rounded up to `E`): with eps = 1 the path is optimal. -/
theorem lazy_xyt_bound_whole (hQ : QueueOk Q wf) (hok : LazyProps.HistOk true env0 (ops ++ [.replan bs]))
    (hrun : (LazyARA.init env0 Q true D ie fe de fs).run ops = some st) (hid : ids ops (none, none) = (some a, some b))
    (hr : st.replan bs = .ok (st', res)) (hbs : bs ≠ []) (hcut : ∀ x ∈ res.passes, x.out = false) (hD : 0 < D)
    (hx : Hist s xops stx) (N : XNumbering s num den) (hmap : lastEnv env0 ops = xytLEnv stx.cfg num den b hg hs hgp hsp) (hp : den a = some p) (hq : den b = some q)
    (hd : EndsDistinct s) (hv : 0 < vel) (hfast : NotTooFast s vel) (hw : Followable s vel) (hm : CostAtLeast s 1) (hz : ∃ z : Nat, vel = z)
    (hG : ∀ g, InRange s g → HeurFrom s vel (costs s xops) g (hg g)) {E n : Nat} (hE1 : 1 ≤ E) (hEe : (lastParams (ie, fe, de, fs) ops).1 ≤ E * D)
    (hpre : (lastParams (ie, fe, de, fs) ops).1 * hgp a / D < INFINITECOST) (w : LWalk s (costs s xops) p q n) (hn : E * n < INFINITECOST) :
    res.found = true ∧ ∃ ks n', res.path.map den = ks.map some ∧ ks.head? = some p ∧ ks.getLast? = some q ∧ LPath s (costs s xops) ks n' ∧
      res.cost ≤ n' ∧ n' ≤ E * n := by
  obtain ⟨ix, eg, -, -⟩ := hist_inv hx
  have ok := hx.1
  rw [← eg] at hG w ⊢
  have hE := fun i j n => (edge_iff (gl := b) (hg := hg) (hs := hs) (hgp := hgp) (hsp := hsp) ix ok N hd hm (i := i) (j := j) (n := n))
  obtain ⟨n1, hn1, w1⟩ := walk_of_lwalk (hg := hg) (hs := hs) ix.stc ok N hp hq w
  have hh := xyt_heurOk (hs := hg) ix.stc ok N hv hfast hw hz hG hG true
  simp only [PlannerSpec.HeurOk, if_true] at hh
  obtain ⟨h0, hstep⟩ := hh b
  have hcon : LazySpec.Consistent (lastEnv env0 ops) b := by
    rw [hmap]
    exact ⟨h0, fun i j c hc => hstep i j c ((hE _ _ _).mp hc)⟩
  have wR : RWalk (LazySpec.Edge (lastEnv env0 ops)) a b n1 := by
    rw [hmap]; exact rwalk_of_walk (fun _ _ _ h => (hE _ _ _).mpr h) w1
  have hle : E * n1 ≤ E * n := Nat.mul_le_mul_left _ hn1
  obtain ⟨hf, k', hk', hb⟩ := LazyProps.bound hQ hok hrun hid hr hbs hcut (by rw [hmap]; exact lazy_lower ix ok N hd) hD hE1 hEe hcon
    (by rw [hmap]; exact hpre) wR (by omega)
  obtain ⟨h1, h2, hch, -⟩ := LazyProps.path_sound hQ hok hrun hid hr hf
  rw [hmap] at hk' hch
  have hcost := cheap_le (lazy_lower ix ok N hd) hk' hch
  obtain ⟨ks, e1, e2⟩ := lpath_of_rpath ix.stc ok N hk' (by intro a' ha'; rw [h1] at ha'; cases ha'; exact ⟨p, hp⟩)
  obtain ⟨e3, e4⟩ := ends_decode e1 h1 h2 hp hq
  exact ⟨hf, ks, k', e1, e3, e4, e2, hcost, by omega⟩

end

/-! ## The numbering in hindsight -/

theorem lids_eq {st' : XEnv} {num : XKey → Nat} (hnum : ∀ j k, st'.getCoord j = .ok k → num k = j) {f : XAct → Option (XKey × Nat)} {as : List XAct}
    {l : List (Nat × Nat × XAct)} (h : l.map (fun e => (st'.tab.coord e.1, e.2.1, e.2.2)) = as.filterMap (fun a => (f a).map (fun r => (some r.1, r.2, a)))) :
    l.map (fun e => (e.1, e.2.1, false)) = as.filterMap (fun a => (f a).map (fun r => (num r.1, r.2, false))) := by
  have := congrArg (List.map (fun e : Nat × Nat => (e.1, e.2, false))) (ids_eq hnum as h)
  rw [List.map_map, List.map_filterMap] at this
  rw [show (fun e : Nat × Nat × XAct => (e.1, e.2.1, false)) = (fun e : Nat × Nat => (e.1, e.2, false)) ∘ (fun e : Nat × Nat × XAct => (e.1, e.2.1)) from rfl, this]
  congr 1
  funext a
  cases f a <;> rfl

/-- If `num` agrees with the ID table after the call, GetLazySuccs of the stateful model returns exactly the list of `xytLEnv`. -/
theorem xytLEnv_succs {st st' : XEnv} {id : Nat} {l : List (Nat × Nat × XAct)} {p : XKey} (i : SInv s st) (h : st.getLazySuccs id = .ok (st', l))
    (hp : st.getCoord id = .ok p) (hden : den id = some p) (hnum : ∀ j k, st'.getCoord j = .ok k → num k = j) :
    l.map (fun e => (e.1, e.2.1, false)) = (xytLEnv st.cfg num den st.goalId hg hs hgp hsp).succs id := by
  simp only [xytLEnv]
  unfold getLazySuccs at h
  by_cases hgl : id = st.goalId
  · rw [if_pos hgl]
    subst hgl
    rw [succsBy_goal] at h
    cases h; rfl
  · rw [if_neg hgl, hden]
    obtain ⟨st1, l1, h1, -, -, h2⟩ := succsBy_ok i (lazySuccAct_inRange i.stc) hgl (getCoord_ok.mp hp)
    rw [h] at h1; cases h1
    exact lids_eq hnum h2

/-- and so does GetLazyPreds -/
theorem xytLEnv_preds {st st' : XEnv} {id : Nat} {l : List (Nat × Nat × XAct)} {p : XKey} (ok : SetupOk s) (i : SInv s st) (h : st.getLazyPreds id = .ok (st', l))
    (hp : st.getCoord id = .ok p) (hden : den id = some p) (hnum : ∀ j k, st'.getCoord j = .ok k → num k = j) :
    l.map (fun e => (e.1, e.2.1, false)) = (xytLEnv st.cfg num den st.goalId hg hs hgp hsp).preds id := by
  simp only [xytLEnv]
  unfold getLazyPreds at h
  rw [hden]
  obtain ⟨st1, l1, h1, -, -, h2⟩ := predsBy_ok ok i lazyPredAct_inRange (getCoord_ok.mp hp)
  rw [h] at h1; cases h1
  exact lids_eq hnum h2

theorem trueCostLoop_eq {st : XEnv} (i : XInv st) {p q : XKey} {child : Nat} (hq : st.tab.coord child = some q) : ∀ (as : List XAct),
    st.cfg.trueLoop p q as = match trueCostLoop st p child as with
      | .ok (some n) => (n : Int)
      | _ => -1
  | [] => rfl
  | a :: as => by
    have ih := trueCostLoop_eq i (p := p) hq as
    obtain ⟨e, he1, he2, he3⟩ := StateTable.coord_some i.tab hq
    simp only [XCfg.trueLoop, trueCostLoop]
    by_cases hv : st.cfg.valid (p.1 + a.dX) (p.2.1 + a.dY) = false
    · rw [if_pos hv, if_pos hv, ih]
    · rw [if_neg hv, if_neg hv]
      by_cases ht : st.cfg.target p a = q
      · have hf : st.find (st.cfg.target p a) = some e := (find_iff i).mpr ⟨he1, he2.trans ht.symm⟩
        rw [if_neg (not_not.mpr ht), hf]
        simp only [if_neg (not_not.mpr he3)]
        split_ifs <;> rfl
      · rw [if_pos ht, ih]
        cases hf : st.find (st.cfg.target p a) with
        | none => rfl
        | some e' =>
          have hee : e'.id ≠ child := by
            intro hee
            obtain ⟨f1, f2⟩ := (find_iff i).mp hf
            have := StateTable.coord_of_mem i.tab f1
            rw [hee, hq, f2] at this
            cases this
            exact ht rfl
          simp only [if_pos hee]

/-- and so does GetTrueCost, the exception it raises for unconnected pairs read as -1 -/
theorem xytLEnv_true {st : XEnv} {i j : Nat} {p q : XKey} (inv : SInv s st) (hp : st.getCoord i = .ok p) (hq : st.getCoord j = .ok q)
    (hi : den i = some p) (hj : den j = some q) :
    (xytLEnv st.cfg num den gl hg hs hgp hsp).trueCost i j = match st.getTrueCost i j with
      | .ok (some n) => (n : Int)
      | _ => -1 := by
  have hr := (inRange_iff.mp (inRange_of_coord inv.x (getCoord_ok.mp hp))).2
  have hcost : st.getTrueCost i j = trueCostLoop st p j (st.cfg.acts p.2.2) := by
    unfold getTrueCost
    rw [hp, hq]
    unfold actsAt
    dsimp only
    rw [if_pos hr]
  rw [hcost]
  simp only [xytLEnv, hi, hj]
  exact trueCostLoop_eq inv.x (getCoord_ok.mp hq) _

end Sbpl.XYTLazyProps
