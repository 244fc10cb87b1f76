import Verif.Props.XYTDefaultMore
import Verif.Props.XYTARA
/-!
# Planning on the (x, y, theta) lattice without motion primitives
-/

namespace Sbpl.XDflProps
open Sbpl XSpec XEnv XCfg XDfl UtilsSpec XYTProps XYTARAProps PlannerSpec

variable {s : Setup} {vel tt : ℚ} {grid : Int → Int → Nat}

theorem lpath_dpath (h1 : 2 ≤ s.T) (h2 : s.T ≤ 128) {ks : List XKey} {n : Nat} : LPath (setup s vel tt) grid ks n ↔ DPath s vel tt grid ks n := by
  constructor
  · intro h
    induction h with
    | single p => exact .single p
    | cons m e _ ih => exact .cons ((default_edge h1 h2).mp ⟨m, e⟩) ih
  · intro h
    induction h with
    | single p => exact .single p
    | cons e _ ih =>
      obtain ⟨m, e⟩ := (default_edge h1 h2).mpr e
      exact .cons m e ih

theorem lwalk_of_dpath (h1 : 2 ≤ s.T) (h2 : s.T ≤ 128) {ks : List XKey} {n : Nat} (h : DPath s vel tt grid ks n) :
    ∀ {p q : XKey}, ks.head? = some p → ks.getLast? = some q → LWalk (setup s vel tt) grid p q n := by
  induction h with
  | single p => intro a b ha hb; simp at ha hb; subst ha; subst hb; exact .nil
  | @cons p q c n l e _ ih =>
    intro a b ha hb
    simp only [List.head?_cons, Option.some.injEq] at ha
    subst ha
    have w := ih rfl (by simpa using hb)
    obtain ⟨m, e⟩ := (default_edge h1 h2).mpr e
    have w1 : LWalk (setup s vel tt) grid p q (0 + c) := .snoc m .nil e
    have := lwalk_trans w1 w
    rwa [Nat.zero_add] at this

/-! ## The conditions on primitives -/

/-- the cost of a move is at least the time for its distance -/
theorem default_fast (hv : 0 < vel) (hc : 0 ≤ s.cs) : NotTooFast (setup s vel tt) vel := by
  intro m hm
  obtain ⟨t, i, t0, tT, -, rfl⟩ := mem_prims.mp hm
  show (1000 * s.cs) * (1000 * s.cs) * (dX s.T t i * dX s.T t i + dY s.T t i * dY s.T t i : Int) ≤ (cost s.T s.cs vel tt t i * vel) * (cost s.T s.cs vel tt t i * vel)
  by_cases hi : i < 3
  · have h := (cost_go (vel := vel) (tt := tt) (cs := s.cs) (T := s.T) (t := t) hi (cost s.T s.cs vel tt t i)).mp (Nat.le_refl _)
    have hn : (0 : Int) ≤ dX s.T t i * dX s.T t i + dY s.T t i * dY s.T t i := by nlinarith [mul_self_nonneg (dX s.T t i), mul_self_nonneg (dY s.T t i)]
    generalize dX s.T t i * dX s.T t i + dY s.T t i * dY s.T t i = d at *
    generalize cost s.T s.cs vel tt t i = b at *
    have hd : (0 : ℝ) ≤ (d : ℝ) := by exact_mod_cast hn
    have hvr : (0 : ℝ) < (vel : ℝ) := by exact_mod_cast hv
    have hcr : (0 : ℝ) ≤ (s.cs : ℝ) := by exact_mod_cast hc
    have e1 : 1000 * (s.cs : ℝ) * Real.sqrt (d : ℝ) ≤ b * vel := by
      push_cast at h
      rw [div_mul_eq_mul_div, div_le_iff₀ hvr] at h
      exact h
    have e2 : (1000 * (s.cs : ℝ) * Real.sqrt (d : ℝ)) * (1000 * (s.cs : ℝ) * Real.sqrt (d : ℝ)) ≤ (b * vel) * (b * vel) :=
      mul_self_le_mul_self (by positivity) e1
    have e3 : (1000 * (s.cs : ℝ) * Real.sqrt (d : ℝ)) * (1000 * (s.cs : ℝ) * Real.sqrt (d : ℝ)) = 1000 * s.cs * (1000 * s.cs) * d := by
      have := Real.mul_self_sqrt hd
      calc _ = 1000 * (s.cs : ℝ) * (1000 * s.cs) * (Real.sqrt (d : ℝ) * Real.sqrt (d : ℝ)) := by ring
        _ = _ := by rw [this]
    rw [e3] at e2
    exact_mod_cast e2
  · have z1 : dX s.T t i = 0 := by unfold dX; rw [if_neg hi]
    have z2 : dY s.T t i = 0 := by unfold dY; rw [if_neg hi]
    rw [z1, z2]
    simp only [mul_zero, add_zero, Int.cast_zero]
    exact mul_self_nonneg _

/-- the moves can be followed by the 2D search, if no cell of a start can be at or above the inscribed threshold -/
theorem default_follow (hv : 0 < vel) (hc : 0 ≤ s.cs) (ht : s.obs ≤ s.inscr) : Followable (setup s vel tt) vel := by
  intro m hm
  have fast := default_fast (tt := tt) hv hc m hm
  obtain ⟨t, i, t0, tT, -, rfl⟩ := mem_prims.mp hm
  obtain ⟨⟨a1, a2⟩, a3, a4⟩ := move_range (T := s.T) (t := t) (i := i)
  change (1000 * s.cs) * (1000 * s.cs) * (dX s.T t i * dX s.T t i + dY s.T t i * dY s.T t i : Int) ≤ (cost s.T s.cs vel tt t i * vel) * (cost s.T s.cs vel tt t i * vel) at fast
  show ∃ n, Chain (setup s vel tt) (prim s.T s.cs vel tt t i) (dX s.T t i, dY s.T t i) n ∧ (n : ℚ) ≤ cost s.T s.cs vel tt t i * vel
  by_cases h0 : dX s.T t i = 0 ∧ dY s.T t i = 0
  · rw [h0.1, h0.2]
    exact ⟨0, .nil, by push_cast; positivity⟩
  have mm : ((1000 * s.cs).num.toNat : ℚ) / ((1000 * s.cs).den : ℚ) = 1000 * s.cs := by
    have : (((1000 * s.cs).num.toNat : Int) : ℚ) = (1000 * s.cs).num := by
      rw [Int.toNat_of_nonneg (Rat.num_nonneg.mpr (by positivity))]
    have h2 : ((1000 * s.cs).num.toNat : ℚ) = ((1000 * s.cs).num : ℚ) := by exact_mod_cast this
    rw [h2]
    exact Rat.num_div_den _
  have tch : ∀ r ∈ GridSpec.touched (0, 0) (dX s.T t i) (dY s.T t i), r = (dX s.T t i, dY s.T t i) ∨ Centre (setup s vel tt) (prim s.T s.cs vel tt t i) r ∨
      (r = (0, 0) ∧ (setup s vel tt).obs ≤ (setup s vel tt).inscr) := by
    intro r hr
    unfold GridSpec.touched at hr
    rw [if_neg (by rw [abs_eq (by norm_num)]; omega), if_neg (by rw [abs_eq (by norm_num)]; omega)] at hr
    rcases List.mem_pair.mp hr with rfl | rfl
    · exact .inr (.inr ⟨rfl, ht⟩)
    · exact .inl (by simp)
  have move : ∀ l, GridSpec.moveLen (1000 * s.cs).num.toNat (1000 * s.cs).den (dX s.T t i) (dY s.T t i) = some l →
      Chain (setup s vel tt) (prim s.T s.cs vel tt t i) (dX s.T t i, dY s.T t i) l := by
    intro l hl
    have := Chain.snoc (s := setup s vel tt) (m := prim s.T s.cs vel tt t i) (a := (0, 0)) (b := (dX s.T t i, dY s.T t i)) (n := 0) (l := l) .nil
      (by simp only [Int.sub_zero]; exact hl) (by simp only [Int.sub_zero]; exact tch)
    rwa [Nat.zero_add] at this
  have dpos : (0 : ℚ) < ((1000 * s.cs).den : ℚ) := by exact_mod_cast Nat.pos_of_ne_zero (1000 * s.cs).den_nz
  have cn : (0 : ℚ) ≤ cost s.T s.cs vel tt t i * vel := by positivity
  by_cases h1 : |dX s.T t i| + |dY s.T t i| = 1
  · refine ⟨_, move _ (by unfold GridSpec.moveLen; rw [if_pos h1]), ?_⟩
    have e : dX s.T t i * dX s.T t i + dY s.T t i * dY s.T t i = 1 := by
      generalize dX s.T t i = x at *
      generalize dY s.T t i = y at *
      interval_cases x <;> interval_cases y <;> simp_all
    rw [e] at fast
    refine le_trans ?_ (abs_le_of_sq_le_sq' (a := 1000 * s.cs) (by push_cast at fast; nlinarith) cn).2
    have : ((((1000 * s.cs).num.toNat / (1000 * s.cs).den : Nat)) : ℚ) ≤ ((1000 * s.cs).num.toNat : ℚ) / ((1000 * s.cs).den : ℚ) := Nat.cast_div_le
    rw [mm] at this
    exact this
  · have h2 : |dX s.T t i| = 1 ∧ |dY s.T t i| = 1 := by
      generalize dX s.T t i = x at *
      generalize dY s.T t i = y at *
      interval_cases x <;> interval_cases y <;> simp_all
    refine ⟨_, move _ (by unfold GridSpec.moveLen; rw [if_neg h1, if_pos h2]), ?_⟩
    have e : dX s.T t i * dX s.T t i + dY s.T t i * dY s.T t i = 2 := by
      generalize dX s.T t i = x at *
      generalize dY s.T t i = y at *
      interval_cases x <;> interval_cases y <;> simp_all
    rw [e] at fast
    refine le_trans ?_ (abs_le_of_sq_le_sq' (a := 1000 * s.cs * (1414 / 1000)) (by push_cast at fast; nlinarith [mul_self_nonneg (1000 * s.cs)]) cn).2
    have : ((((1000 * s.cs).num.toNat * 1414 / ((1000 * s.cs).den * 1000) : Nat)) : ℚ) ≤ (((1000 * s.cs).num.toNat * 1414 : Nat) : ℚ) / (((1000 * s.cs).den * 1000 : Nat) : ℚ) := Nat.cast_div_le
    refine le_trans this (le_of_eq ?_)
    push_cast
    rw [mul_div_mul_comm, mm]

/-- the cheapest move: the time for a cell, or for a turn -/
theorem default_cost {m : Nat} (hm : (m : ℚ) ≤ 1000 * s.cs / vel) (hm2 : (m : ℚ) ≤ 1000 * tt) : CostAtLeast (setup s vel tt) m := by
  intro x hx
  obtain ⟨t, i, t0, tT, -, rfl⟩ := mem_prims.mp hx
  show m ≤ cost s.T s.cs vel tt t i
  by_cases hi : i < 3
  · have h := (cost_go (vel := vel) (tt := tt) (cs := s.cs) (T := s.T) (t := t) hi (cost s.T s.cs vel tt t i)).mp (Nat.le_refl _)
    have st := (step_direction (move_step (T := s.T) (t := t) hi)).1
    have hd : (1 : Int) ≤ dX s.T t i * dX s.T t i + dY s.T t i * dY s.T t i := by
      obtain ⟨⟨a1, a2⟩, a3, a4⟩ := move_range (T := s.T) (t := t) (i := i)
      generalize dX s.T t i = x at *
      generalize dY s.T t i = y at *
      interval_cases x <;> interval_cases y <;> simp_all
    have hs : (1 : ℝ) ≤ Real.sqrt ((dX s.T t i * dX s.T t i + dY s.T t i * dY s.T t i : Int) : ℝ) := by
      rw [show (1 : ℝ) = Real.sqrt 1 by simp]
      apply Real.sqrt_le_sqrt
      have : ((1 : Int) : ℝ) ≤ ((dX s.T t i * dX s.T t i + dY s.T t i * dY s.T t i : Int) : ℝ) := Int.cast_le.mpr hd
      rwa [Int.cast_one] at this
    have hmr : (m : ℝ) ≤ ((1000 * s.cs / vel : ℚ) : ℝ) := by exact_mod_cast hm
    have hm0 : (0 : ℝ) ≤ (m : ℝ) := Nat.cast_nonneg _
    have : (m : ℝ) ≤ cost s.T s.cs vel tt t i := by nlinarith
    exact_mod_cast this
  · exact (cost_turn hi m).mpr (.inr hm2)

/-! ## ARA* -/

section
variable {env0 : PEnv} {fwd : Bool} {D ie fe de : Nat} {fs : Bool} {ops : List ARA.Op} {st st' : ARA} {bs : List Nat}
  {res : ARA.Result} {a b : Nat} {p q : XKey} {xops : List XEnv.Op} {stx : XEnv} {num : XKey → Nat} {den : Nat → Option XKey} {hg hs : XKey → XKey → Int}

/-- **C184** ARA* on the lattice without motion primitives, any history, forward or backward: a reported path is a sequence of the moves of C180 from the start to the goal, valid with the
current costs of the cells, of total cost at most the reported cost. -/
theorem ara_default_path (h1 : 2 ≤ s.T) (he : EnvOk env0) (hok : ∀ op ∈ ops, OpOk op) (hrun : (ARA.init env0 fwd D ie fe de fs).run ops = some st)
    (ha : lastStart ops = some a) (hb : lastGoal ops = some b) (hbs : bs ≠ []) (hr : st.replan bs = .ok (st', res)) (hf : res.found = true)
    (hx : Hist (setup s vel tt) xops stx) (N : XNumbering s num den) (hmap : lastEnv env0 ops = xytPEnv stx.cfg num den hg hs) (hp : den a = some p) (hq : den b = some q) :
    ∃ ks n, res.path.map den = ks.map some ∧ ks.head? = some p ∧ ks.getLast? = some q ∧ ks.Nodup ∧ DPath s vel tt (costs s xops) ks n ∧ n ≤ res.cost := by
  obtain ⟨ks, n, e1, e2, e3, e4, e5, e6⟩ := ara_xyt_path he hok hrun ha hb hbs hr hf hx ⟨N.left, N.right⟩ hmap hp hq
  exact ⟨ks, n, e1, e2, e3, e4, (lpath_dpath h1 hx.1.1).mp e5, e6⟩

/-- **C184** When `replan` reports eps = e / D (≥ 1) and there is a path of cost `n`, then one is found, of cost at most (eps + (k * eps + 1) / m) * n, where `m` ms is at most the time for
one cell and for a turn, and `k` is the slack of the nominal velocity (see C58); for eps = 1 and whole velocities it is optimal.  The obstacle threshold must not be above the inscribed one. -/
theorem ara_default_bound (h1 : 2 ≤ s.T) (he : EnvOk env0) (hok : ∀ op ∈ ops, OpOk op) (hrun : (ARA.init env0 fwd D ie fe de fs).run ops = some st)
    (ha : lastStart ops = some a) (hb : lastGoal ops = some b) (hbs : bs ≠ []) (hr : st.replan bs = .ok (st', res)) {e n : Nat} (hfe : res.finalEps = some e)
    (hD : 0 < D) (he1 : D ≤ e) (hx : Hist (setup s vel tt) xops stx) (N : XNumbering s num den) (hmap : lastEnv env0 ops = xytPEnv stx.cfg num den hg hs)
    (hp : den a = some p) (hq : den b = some q) (hv : 0 < vel) (hc : 0 ≤ s.cs) (ht : s.obs ≤ s.inscr) {m k : Nat}
    (hm : (m : ℚ) ≤ 1000 * s.cs / vel) (hm2 : (m : ℚ) ≤ 1000 * tt) (hk : Slack vel k)
    (hG : ∀ g, InRange s g → HeurFrom s vel (costs s xops) g (hg g)) (hS : ∀ g, InRange s g → HeurFrom s vel (costs s xops) g (hs g))
    {ks : List XKey} (w : DPath s vel tt (costs s xops) ks n) (w1 : ks.head? = some p) (w2 : ks.getLast? = some q) :
    res.found = true ∧ D * m * res.cost ≤ (e * m + e * k + D) * n ∧ ((∃ z : Nat, vel = z) → e = D → res.cost ≤ n) :=
  ara_xyt_bound (s := setup s vel tt) he hok hrun ha hb hbs hr hfe hD he1 hx ⟨N.left, N.right⟩ hmap hp hq hv (default_fast hv hc) (default_follow hv hc ht) (default_cost hm hm2) hk
    hG hS (lwalk_of_dpath h1 hx.1.1 w w1 w2)

end

end Sbpl.XDflProps
