import Verif.Proofs.RobArmSucc
import Verif.Model.RobArmPlan
import Verif.Props.ARA
/-!
# The robot arm (C110 - C118)
-/
set_option linter.unusedSectionVars false

namespace Sbpl.ArmProps
open RobArm ArmSpec ArmPr BfsSpec

variable {K : Type} [Field K] [LinearOrder K] [IsStrictOrderedRing K] [FloorRing K] {c : Cfg K}

/-! ## Collision checking -/

/-- **C110** IsValidCoord never reads outside the map, always returns, and accepts exactly the configurations all of whose links are clear. -/
theorem isValid_correct (ok : CfgOk c) {k : List Nat} (hk : IsConf c k) :
    (c.isValid k = .ok true ∧ Valid c k) ∨ (c.isValid k = .ok false ∧ ¬ Valid c k) := by
  obtain ⟨v, ev, hv⟩ := isValid_spec ok hk
  cases v with
  | true => exact .inl ⟨ev, hv.mp rfl⟩
  | false => exact .inr ⟨ev, fun h => by have := hv.mpr h; cases this⟩

/-- **C110** what a link being clear means: its ends are in cells `a`, `b` of the map, joined by a digital line (connected, at most half a cell away from the straight line
between the cells) of free cells; in particular the end effector of a valid configuration is in a free cell of the map. -/
theorem clear_line {s : (K × K) × (K × K)} (h : Clear c s) : ∃ (a b : Nat × Nat) (l : List (Nat × Nat)), InMap c a ∧ InMap c b ∧ PointIn c s.1 a ∧ PointIn c s.2 b ∧
    UtilsSpec.DigitalLine ((a.1 : Int), (a.2 : Int)) ((b.1 : Int), (b.2 : Int)) (l.map fun q => ((q.1 : Int), (q.2 : Int))) ∧ ∀ q ∈ l, InMap c q ∧ Free c q := by
  obtain ⟨a, b, l, ha, hb, pa, pb, hl, hf⟩ := h
  obtain ⟨l', hl', d, hd⟩ := line_inMap ha hb
  rw [hl] at hl'
  cases hl'
  have : ∃ l2 : List (Nat × Nat), l = l2.map (fun q => ((q.1 : Int), (q.2 : Int))) ∧ ∀ q ∈ l2, InMap c q ∧ Free c q := by
    clear hl d hd
    induction l with
    | nil => exact ⟨[], rfl, fun _ h => nomatch h⟩
    | cons q l ih =>
      obtain ⟨n, e, hn⟩ := hf q (List.mem_cons_self ..)
      obtain ⟨l2, e2, h2⟩ := ih (fun q h => hf q (List.mem_cons_of_mem _ h))
      refine ⟨n :: l2, by rw [e, e2]; rfl, ?_⟩
      intro r hr
      rcases List.mem_cons.mp hr with rfl | hr
      · exact hn
      · exact h2 r hr
  obtain ⟨l2, e2, h2⟩ := this
  exact ⟨a, b, l2, ha, hb, pa, pb, e2 ▸ d, h2⟩

/-- **C110** a configuration is rejected only if a link leaves the map or an obstacle is in a cell at most half a cell away from the line between the cells of its ends -/
theorem rejected_reason (ok : CfgOk c) {k : List Nat} (hk : IsConf c k) (h : c.isValid k = .ok false) : ∃ s ∈ segments c.links k c.base,
    (∀ a, InMap c a → ¬ PointIn c s.1 a) ∨ (∀ b, InMap c b → ¬ PointIn c s.2 b) ∨
    ∃ a b q, PointIn c s.1 a ∧ PointIn c s.2 b ∧ InMap c q ∧ ¬ Free c q ∧ UtilsSpec.NearLine ((a.1 : Int), (a.2 : Int)) ((b.1 : Int), (b.2 : Int)) ((q.1 : Int), (q.2 : Int)) := by
  have h1 := (isValid_false ok hk).mp h
  have h2 : ∃ s ∈ segments c.links k c.base, ¬ Clear c s := by
    by_contra hc
    refine h1 ⟨hk, fun s hs => ?_⟩
    by_contra h3
    exact hc ⟨s, hs, h3⟩
  obtain ⟨s, hs, hn⟩ := h2
  refine ⟨s, hs, ?_⟩
  by_cases ha : ∃ a, InMap c a ∧ PointIn c s.1 a
  · by_cases hb : ∃ b, InMap c b ∧ PointIn c s.2 b
    · obtain ⟨a, ma, pa⟩ := ha
      obtain ⟨b, mb, pb⟩ := hb
      obtain ⟨l, hl, d, hm⟩ := line_inMap ma mb
      right; right
      by_contra hcon
      refine hn ⟨a, b, l, ma, mb, pa, pb, hl, fun q hq => ?_⟩
      obtain ⟨m, em, hmm⟩ := hm q hq
      refine ⟨m, em, hmm, ?_⟩
      by_contra hf
      exact hcon ⟨a, b, m, pa, pb, hmm, hf, em ▸ d.near q hq⟩
    · right; left
      intro b mb pb
      exact hb ⟨b, mb, pb⟩
  · left
    intro a ma pa
    exact ha ⟨a, ma, pa⟩

/-- **C110** the end effector's cell -/
theorem effector_cell (ok : CfgOk c) (hne : c.links ≠ []) {k : List Nat} (h : Valid c k) :
    InMap c (c.endCell k) ∧ Free c (c.endCell k) ∧ PointIn c (effector c k) (c.endCell k) := endCell_valid ok hne h

theorem atGoal_iff (ok : CfgOk c) (hne : c.links ≠ []) {k : List Nat} (h : Valid c k) : AtGoal c k ↔ c.endCell k = (c.gx, c.gy) := by
  obtain ⟨_, _, p⟩ := endCell_valid ok hne h
  constructor
  · intro hg; exact pointIn_unique ok p hg
  · intro e; unfold AtGoal; rw [← e]; exact p

/-! ## Initialisation and heuristic -/

/-- **C111** On square maps the table of heuristics is computed without undefined behaviour and contains exact distances: `Heur[tgt][src]` is the least number of moves
between adjacent cells from `tgt` to `src` through free cells (INFINITECOST if there is none).  On maps that are not square memory is corrupted or uninitialised memory
is read. -/
theorem heuristics_iff_square (ok : CfgOk c) (hW : 1 ≤ c.W) (junk : Nat → Nat → Nat) :
    ((∃ h, c.computeHeur junk = .ok h) ↔ c.W = c.H) ∧
    ∀ h, c.computeHeur junk = .ok h → ∀ tgt src, InMap c tgt → InMap c src → IsDist c tgt src (h (ind c.W tgt) (ind c.W src)) := by
  have key : ∀ h, c.computeHeur junk = .ok h → c.W = c.H := by
    intro h hh
    rcases Nat.lt_trichotomy c.W c.H with h1 | h1 | h1
    · obtain ⟨e, he⟩ := computeHeur_high h1 (by omega) junk
      rw [he] at hh; cases hh
    · exact h1
    · rw [computeHeur_wide h1] at hh; cases hh
  refine ⟨⟨fun ⟨h, hh⟩ => key h hh, fun e => ?_⟩, ?_⟩
  · obtain ⟨h', e', _⟩ := computeHeur_square ok.small ok.w16 e.symm junk
    exact ⟨h', e'⟩
  · intro h hh
    obtain ⟨h', e', d⟩ := computeHeur_square ok.small ok.w16 (key h hh).symm junk
    rw [hh] at e'
    cases e'
    exact fun tgt src h1 h2 => d tgt src h1 h2

/-- **C111** maps that are wider than high: Create2DStateSpace writes beyond the end of an array -/
theorem wide_map_corrupts (h : c.H < c.W) (junk : Nat → Nat → Nat) : c.computeHeur junk = .error .outOfBounds := computeHeur_wide h junk

/-- **C111** InitializeEnv returns false exactly if the start configuration collides or the goal cell is outside the map; otherwise on a square map it succeeds. -/
theorem init_correct (ok : CfgOk c) (hsq : c.W = c.H) (junk : Nat → Nat → Nat) :
    (Valid c c.startCoord ∧ InMap c (c.gx, c.gy) → ∃ e, c.init junk = .ok (some e) ∧ EInv c e ∧ c.computeHeur junk = .ok e.heur) ∧
    (¬(Valid c c.startCoord ∧ InMap c (c.gx, c.gy)) → c.init junk = .ok none) := by
  obtain ⟨h1, h2⟩ := initTables_inv ok
  unfold Cfg.init
  constructor
  · intro h
    obtain ⟨e, he, hi⟩ := h1 h
    obtain ⟨h', e', _⟩ := computeHeur_square ok.small ok.w16 hsq.symm junk
    rw [he, e']
    exact ⟨_, rfl, hi h', rfl⟩
  · intro h
    rw [h2 h]

/-- what a successful initialisation implies -/
theorem init_some (ok : CfgOk c) {junk : Nat → Nat → Nat} {e : Env K} (h : c.init junk = .ok (some e)) :
    Valid c c.startCoord ∧ InMap c (c.gx, c.gy) ∧ EInv c e ∧ c.computeHeur junk = .ok e.heur := by
  obtain ⟨h1, h2⟩ := initTables_inv ok
  unfold Cfg.init at h
  by_cases hv : Valid c c.startCoord ∧ InMap c (c.gx, c.gy)
  · obtain ⟨e1, he, hi⟩ := h1 hv
    rw [he] at h
    dsimp only at h
    cases hh : c.computeHeur junk with
    | error x => rw [hh] at h; cases h
    | ok h' =>
      rw [hh] at h
      cases h
      exact ⟨hv.1, hv.2, hi h', rfl⟩
  · rw [h2 hv] at h; cases h

theorem expand_inv (ok : CfgOk c) (hne : c.links ≠ []) (fine : FineSteps c) (hs : Canon c c.startCoord) (vs : Valid c c.startCoord) (calls : List Nat) :
    ∀ {e e' : Env K}, EInv c e → e.expand calls = .ok e' → EInv c e' ∧ e'.heur = e.heur := by
  induction calls with
  | nil => intro e e' i h; cases h; exact ⟨i, rfl⟩
  | cons n calls ih =>
    intro e e' i h
    unfold Env.expand at h
    by_cases hn : n = goalId
    · have : e.getSuccs n = .ok (e, []) := by unfold Env.getSuccs; rw [if_pos hn]
      rw [this] at h
      exact ih i h
    · cases hx : e.table[n]? with
      | none =>
        have : e.getSuccs n = .error .badId := by unfold Env.getSuccs; rw [if_neg hn, hx]
        rw [this] at h; cases h
      | some x =>
        obtain ⟨e1, l, h1, i1, _, hh, _⟩ := getSuccs_spec ok hne fine hs vs i hn hx
        rw [h1] at h
        obtain ⟨i2, h2⟩ := ih i1 h
        exact ⟨i2, h2.trans hh⟩

/-- what holds in every reached environment -/
theorem reached_inv (ok : CfgOk c) (hne : c.links ≠ []) (fine : FineSteps c) (hs : Canon c c.startCoord) {e : Env K} (h : Reached c e) :
    Valid c c.startCoord ∧ InMap c (c.gx, c.gy) ∧ EInv c e ∧ ∃ junk, c.computeHeur junk = .ok e.heur := by
  obtain ⟨junk, e0, calls, h0, hc⟩ := h
  obtain ⟨vs, g, i, hh⟩ := init_some ok h0
  obtain ⟨i', h'⟩ := expand_inv ok hne fine hs vs calls i hc
  exact ⟨vs, g, i', junk, by rw [h']; exact hh⟩

theorem stands_iff (ok : CfgOk c) (hne : c.links ≠ []) {e : Env K} {i : Nat} {k : List Nat} (hv : Valid c k) : Stands c e i k ↔ StandsFor c e i k := by
  unfold Stands StandsFor goalId
  rw [atGoal_iff ok hne hv]
  by_cases h : c.endCell k = (c.gx, c.gy) ∨ (k = zero c ∧ c.startCoord ≠ zero c)
  · rw [if_pos h]
    constructor
    · intro hi; exact .inl ⟨hi, h⟩
    · rintro (h' | h')
      · exact h'.1
      · exact absurd h (by rintro (h1 | h1); exact h'.2.1 h1; exact h'.2.2.1 h1)
  · rw [if_neg h]
    simp only [not_or] at h
    constructor
    · intro hi; exact .inr ⟨hi.1, h.1, h.2, hi.2⟩
    · rintro (h' | h')
      · exact absurd h'.2 (by rintro (h1 | h1); exact h.1 h1; exact h.2 h1)
      · exact ⟨h'.1, h'.2.2.2⟩

theorem expand_snoc {e e' : Env K} {n : Nat} {l : List (Nat × Nat)} (h : e.getSuccs n = .ok (e', l)) (calls : List Nat) :
    ∀ {e0 : Env K}, e0.expand calls = .ok e → e0.expand (calls ++ [n]) = .ok e' := by
  induction calls with
  | nil => intro e0 hc; cases hc; show Env.expand e [n] = _; unfold Env.expand; rw [h]; rfl
  | cons m calls ih =>
    intro e0 hc
    rw [List.cons_append]
    unfold Env.expand at hc ⊢
    cases hm : e0.getSuccs m with
    | error x => rw [hm] at hc; cases hc
    | ok r => rw [hm] at hc; exact ih hc

/-- **C112** GetSuccs of a state other than the goal, in any environment reached by any calls: it succeeds, every listed successor costs 1 and is the state of a valid
configuration obtained by turning one joint one step, and every such configuration's state is listed; existing IDs keep their meaning. -/
theorem succs_correct (ok : CfgOk c) (hne : c.links ≠ []) (fine : FineSteps c) (hs : Canon c c.startCoord) {e : Env K} (hr : Reached c e)
    {n : Nat} {x : Entry} (hn : n ≠ 1) (hx : e.table[n]? = some x) :
    ∃ e' l, e.getSuccs n = .ok (e', l) ∧ Reached c e' ∧ e.table <+: e'.table ∧
      (∀ t cost, (t, cost) ∈ l → cost = 1 ∧ ∃ k, Turned c.links x.coord k ∧ Valid c k ∧ StandsFor c e' t k) ∧
      (∀ k, Turned c.links x.coord k → Valid c k → ∃ t, (t, 1) ∈ l ∧ StandsFor c e' t k) := by
  classical
  obtain ⟨vs, g, i, _⟩ := reached_inv ok hne fine hs hr
  obtain ⟨e', l, h1, i', hp, hh, hf⟩ := getSuccs_spec ok hne fine hs vs i hn hx
  obtain ⟨hcx, _, _⟩ := entry_ok i hs vs hn hx
  refine ⟨e', l, h1, ?_, hp, ?_, ?_⟩
  · obtain ⟨junk, e0, calls, h0, hc⟩ := hr
    exact ⟨junk, e0, calls ++ [n], h0, expand_snoc h1 calls hc⟩
  · intro t cost ht
    obtain ⟨i0, hi0⟩ := List.mem_iff_getElem?.mp ht
    have hlen := hf.length_eq
    have h3 := (List.getElem?_eq_some_iff.mp hi0).1
    have h4 := hf.get (i := i0) (by omega) h3
    have hmem : ((moves c.links x.coord).filter (fun k => decide (Valid c k)))[i0]'(by omega) ∈ (moves c.links x.coord).filter (fun k => decide (Valid c k)) := List.getElem_mem _
    have e5 := (List.getElem?_eq_some_iff.mp hi0).2
    simp only [List.get_eq_getElem] at h4
    rw [e5] at h4
    rw [List.mem_filter] at hmem
    have hv : Valid c (((moves c.links x.coord).filter (fun k => decide (Valid c k)))[i0]'(by omega)) := by simpa using hmem.2
    exact ⟨h4.2, _, (mem_moves ok.vals hcx).mp hmem.1, hv, (stands_iff ok hne hv).mp h4.1⟩
  · intro k hk hv
    have hmem : k ∈ (moves c.links x.coord).filter (fun k => decide (Valid c k)) := by
      rw [List.mem_filter]; exact ⟨(mem_moves ok.vals hcx).mpr hk, by simp [hv]⟩
    obtain ⟨i0, hi0⟩ := List.mem_iff_getElem?.mp hmem
    have hlen := hf.length_eq
    have h3 := (List.getElem?_eq_some_iff.mp hi0).1
    have h4 := hf.get (i := i0) h3 (by omega)
    simp only [List.get_eq_getElem] at h4
    rw [(List.getElem?_eq_some_iff.mp hi0).2] at h4
    refine ⟨(l[i0]'(by omega)).1, ?_, (stands_iff ok hne hv).mp h4.1⟩
    have : l[i0]'(by omega) ∈ l := List.getElem_mem _
    rw [← h4.2]; exact this

/-- **C112** the goal has no successors; IDs identify configurations; every state other than the goal is a valid configuration whose end effector is stored with it -/
theorem ids_correct (ok : CfgOk c) (hne : c.links ≠ []) (fine : FineSteps c) (hs : Canon c c.startCoord) {e : Env K} (hr : Reached c e) :
    e.getSuccs 1 = .ok (e, []) ∧
    (∀ i x, i ≠ 1 → e.table[i]? = some x → Canon c x.coord ∧ Valid c x.coord ∧ PointIn c (effector c x.coord) (x.ex, x.ey)) ∧
    (∀ i j x y, i ≠ 1 → j ≠ 1 → e.table[i]? = some x → e.table[j]? = some y → x.coord = y.coord → i = j) := by
  obtain ⟨vs, g, i, _⟩ := reached_inv ok hne fine hs hr
  refine ⟨rfl, ?_, ?_⟩
  · intro n x hn hx
    obtain ⟨h1, h2, h3⟩ := entry_ok i hs vs hn hx
    refine ⟨h1, h2, ?_⟩
    rw [h3]; exact (endCell_valid ok hne h2).2.2
  · intro a b x y ha hb hx hy he
    rcases i.dist a b x y hx hy he with h | ⟨h1, h2⟩
    · exact h
    · omega

/-! ## Consistency -/

theorem dist_step {o p q : Nat × Nat} {v w : Nat} (hp : IsDist c o p v) (hq : IsDist c o q w) (h : p = q ∨ (Adj c q p ∧ Free c p ∧ Free c q)) : v ≤ w + 1 := by
  rcases h with rfl | ⟨h, fp, fq⟩
  · rcases hp with ⟨s1, m1⟩ | ⟨e1, n1⟩ <;> rcases hq with ⟨s2, m2⟩ | ⟨e2, n2⟩
    · have := m1 _ s2; omega
    · exact absurd s1 (n2 _)
    · exact absurd s2 (n1 _)
    · omega
  · have h' : Adj c p q := ⟨h.2.1, h.1, fun e => h.2.2.1 e.symm, by rw [abs_sub_comm]; exact h.2.2.2.1, by rw [abs_sub_comm]; exact h.2.2.2.2⟩
    rcases hp with ⟨s1, m1⟩ | ⟨e1, n1⟩ <;> rcases hq with ⟨s2, m2⟩ | ⟨e2, n2⟩
    · exact m1 _ (.move s2 h fp)
    · exact absurd (.move s1 h' fq) (n2 _)
    · exact absurd (.move s2 h fp) (n1 _)
    · omega

theorem dist_self {o : Nat × Nat} {v : Nat} (h : IsDist c o o v) : v = 0 := by
  rcases h with ⟨_, m⟩ | ⟨_, n⟩
  · have := m 0 (.source rfl); omega
  · exact absurd (.source rfl) (n 0)

theorem cell_step (ok : CfgOk c) (hne : c.links ≠ []) (fine : FineSteps c) {k k' : List Nat} (hc : Canon c k) (h : Turned c.links k k') (v : Valid c k) (v' : Valid c k') :
    c.endCell k = c.endCell k' ∨ (Adj c (c.endCell k') (c.endCell k) ∧ Free c (c.endCell k) ∧ Free c (c.endCell k')) := by
  have h1 := endCell_turned ok hne fine hc h v v'
  obtain ⟨a1, a2, _⟩ := endCell_valid ok hne v
  obtain ⟨b1, b2, _⟩ := endCell_valid ok hne v'
  by_cases e : c.endCell k = c.endCell k'
  · exact .inl e
  · exact .inr ⟨⟨b1, a1, fun h => e h.symm, by rw [abs_sub_comm]; exact h1.1, by rw [abs_sub_comm]; exact h1.2⟩, a2, b2⟩

/-- **C113** GetFromToHeuristic is consistent: it decreases by at most 1 along every edge, towards any target state (the edge into the goal state included, if the
configuration with all joints 0 is harmless), and GetGoalHeuristic is 0 at the goal. -/
theorem heuristic_consistent (ok : CfgOk c) (hne : c.links ≠ []) (fine : FineSteps c) (hs : Canon c c.startCoord) (hz : ZeroHarmless c) {e e' : Env K} (hr : Reached c e)
    {n : Nat} {l : List (Nat × Nat)} (hn : n < e.table.length) (h : e.getSuccs n = .ok (e', l)) {t cost : Nat} (ht : (t, cost) ∈ l) {tgt : Nat} (hto : tgt < e.table.length) :
    ∃ u v, e'.fromToHeuristic n tgt = .ok u ∧ e'.fromToHeuristic t tgt = .ok v ∧ u ≤ v + cost ∧ e'.goalHeuristic 1 = .ok 0 := by
  have hW : 1 ≤ c.W := by
    obtain ⟨_, g, _⟩ := reached_inv ok hne fine hs hr
    have := g.1
    omega
  have n1 : n ≠ 1 := by
    rintro rfl
    rw [(ids_correct ok hne fine hs hr).1] at h
    cases h; cases ht
  obtain ⟨x, hx⟩ : ∃ x, e.table[n]? = some x := ⟨_, List.getElem?_eq_getElem hn⟩
  obtain ⟨e2, l2, h2, hr2, hp, hl, _⟩ := succs_correct ok hne fine hs hr n1 hx
  rw [h] at h2
  cases h2
  obtain ⟨vs, g, i', junk, hj⟩ := reached_inv ok hne fine hs hr2
  have hd := (heuristics_iff_square ok hW junk).2 _ hj
  obtain ⟨e1, k, htk, hv, hst⟩ := hl t cost ht
  subst e1
  have ext : ∀ {m : Nat} {y : Entry}, e.table[m]? = some y → e'.table[m]? = some y := by
    intro m y hy
    obtain ⟨r, hr⟩ := hp
    rw [← hr, List.getElem?_append_left (List.getElem?_eq_some_iff.mp hy).1]; exact hy
  obtain ⟨y, hy⟩ : ∃ y, e.table[tgt]? = some y := ⟨_, List.getElem?_eq_getElem hto⟩
  have hx' := ext hx
  have hy' := ext hy
  obtain ⟨hcx, hvx, hex⟩ := entry_ok i' hs vs n1 hx'
  -- the entry of the successor has the successor's end effector
  have hz' : ∃ z, e'.table[t]? = some z ∧ (z.ex, z.ey) = c.endCell k := by
    rcases hst with ⟨e1, hg⟩ | ⟨e1, _, _, z, hz1, hz2⟩
    · subst e1
      refine ⟨_, i'.goal, ?_⟩
      rcases hg with hg | ⟨hg1, hg2⟩
      · exact ((atGoal_iff ok hne hv).mp hg).symm
      · rcases hz with h' | h' | h'
        · exact absurd h' hg2
        · exact absurd (hg1 ▸ hv) h'
        · exact ((atGoal_iff ok hne hv).mp (hg1 ▸ h')).symm
    · refine ⟨z, hz1, ?_⟩
      rw [(entry_ok i' hs vs e1 hz1).2.2, hz2]
  obtain ⟨z, hz1, hz2⟩ := hz'
  have inT : InMap c (y.ex, y.ey) := by
    by_cases e : tgt = 1
    · subst e; rw [i'.goal] at hy'; cases hy'; exact g
    · obtain ⟨_, h1, h2⟩ := entry_ok i' hs vs e hy'
      rw [h2]; exact (endCell_valid ok hne h1).1
  have d1 := hd (y.ex, y.ey) (c.endCell x.coord) inT (endCell_valid ok hne hvx).1
  have d2 := hd (y.ex, y.ey) (c.endCell k) inT (endCell_valid ok hne hv).1
  refine ⟨_, _, by unfold Env.fromToHeuristic; rw [hx', hy'], by unfold Env.fromToHeuristic; rw [hz1, hy'], ?_, ?_⟩
  · rw [i'.cfg, hex, hz2]
    exact dist_step d1 d2 (cell_step ok hne fine hcx htk hvx hv)
  · unfold Env.goalHeuristic Env.fromToHeuristic goalId
    rw [i'.goal]
    dsimp only
    rw [i'.cfg]
    rw [dist_self (hd (c.gx, c.gy) (c.gx, c.gy) g g)]

end Sbpl.ArmProps
