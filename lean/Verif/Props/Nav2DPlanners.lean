import Verif.Props.Nav2DARA
import Verif.Props.RStar
import Verif.Props.ANA
import Verif.Props.MHA
import Verif.Props.LazyARA
import Verif.Props.ANAEx
import Verif.Props.RStarEx
/-!
# R*, ANA*, MHA* and Lazy ARA* on `EnvironmentNAV2D` (C145, C146)
-/

namespace Sbpl.Nav2DProps
open Sbpl GraphSpec GridSpec PlannerSpec Nav2D

/-- What R* sees of EnvironmentNAV2D (src/discrete_space_information/environment_nav2D.cpp: GetSuccs, GetPreds,
GetFromToHeuristic, AreEquivalent 1226-1241); the answers of GetRandomSuccsatDistance and GetRandomPredsatDistance are
arbitrary. -/
def navREnv (c : NavCfg) (num : Int × Int → Nat) (den : Nat → Option (Int × Int)) (gl : Nat) (rs rp : Nat → Nat → List (Nat × Nat)) : REnv where
  succs := (navPEnv c num den).succs gl
  preds := (navPEnv c num den).preds gl
  h s t := match den s, den t with
    | some p, some q => Nav2D.eucl p q
    | _, _ => 0
  equiv s t := match den s, den t with
    | some p, some q => decide (p = q)
    | _, _ => false
  randS := rs
  randP := rp

/-- What Lazy ARA* sees of EnvironmentNAV2D (src/include/sbpl/discrete_space_information/environment_nav2D.h:153-179): all
costs are true ones and GetTrueCost returns -1; the heuristics need no update. -/
def navLEnv (c : NavCfg) (num : Int × Int → Nat) (den : Nat → Option (Int × Int)) (st gl : Nat) : LEnv where
  succs p := ((navPEnv c num den).succs gl p).map fun e => (e.1, e.2, true)
  preds p := ((navPEnv c num den).preds gl p).map fun e => (e.1, e.2, true)
  trueCost _ _ := -1
  hGoal := (navPEnv c num den).hGoal gl
  hStart := (navPEnv c num den).hStart st
  hGoalPre := (navPEnv c num den).hGoal gl
  hStartPre := (navPEnv c num den).hStart st

section
variable {c : NavCfg} {is16 : Bool} {num : Int × Int → Nat} {den : Nat → Option (Int × Int)}

theorem gridWalk_cons {p r q : Int × Int} {m k : Nat} (he : GridSpec.Edge c.W c.H c.grid c.obs is16 p r m)
    (w : GridWalk c.W c.H c.grid c.obs is16 r q k) : GridWalk c.W c.H c.grid c.obs is16 p q (m + k) := by
  induction w with
  | nil => have := GridWalk.snoc (.nil) he; simpa using this
  | snoc _ h ih => rw [← Nat.add_assoc]; exact ih.snoc h

/-- all moves over the map, those out of the goal included -/
def gridEdges (c : NavCfg) (num : Int × Int → Nat) (den : Nat → Option (Int × Int)) (s : Nat) : List (Nat × Nat) :=
  (navPEnv c num den).succs (s + 1) s

theorem gridEdges_iff (N : Numbering c.W c.H num den) (hd : c.dirs = dirsOf is16) {s t n : Nat} :
    (t, n) ∈ gridEdges c num den s ↔ ∃ p q, den s = some p ∧ den t = some q ∧ GridSpec.Edge c.W c.H c.grid c.obs is16 p q n := by
  unfold gridEdges
  rw [succs_edge N hd]
  exact ⟨fun h => h.2, fun h => ⟨by omega, h⟩⟩

theorem gridWalk_of_edges (N : Numbering c.W c.H num den) (hd : c.dirs = dirsOf is16) {l : List Nat} {n : Nat}
    (h : PathCost (gridEdges c num den) l n) : ∀ {a b : Nat} {p : Int × Int}, l.head? = some a → l.getLast? = some b →
      den a = some p → ∃ q, den b = some q ∧ GridWalk c.W c.H c.grid c.obs is16 p q n := by
  induction h with
  | single s =>
    intro a b p h1 h2 hp
    simp at h1 h2
    subst h1; subst h2
    exact ⟨p, hp, .nil⟩
  | @cons s t m n l hm _ ih =>
    intro a b p h1 h2 hp
    simp at h1; subst h1
    obtain ⟨p', r, hp', hr, he⟩ := (gridEdges_iff N hd).mp hm
    rw [hp] at hp'; cases hp'
    rw [List.getLast?_cons_cons] at h2
    obtain ⟨q, hq, w⟩ := ih rfl h2 hr
    exact ⟨q, hq, gridWalk_cons he w⟩

variable {gl : Nat} {rs rp : Nat → Nat → List (Nat × Nat)}

theorem navREnv_ok (N : Numbering c.W c.H num den) (hd : c.dirs = dirsOf is16) : RStarSpec.REnvOk (navREnv c num den gl rs rp) := by
  have e := nav_envOk N hd
  exact ⟨fun s t n h => e.posS gl s t n h, fun s t n h => e.posP gl s t n h⟩

theorem navREnv_preds (N : Numbering c.W c.H num den) (hd : c.dirs = dirsOf is16) :
    RStarSpec.PredsIn (navREnv c num den gl rs rp) (gridEdges c num den) := by
  intro s t n h
  have e := (nav_envOk N hd).dualP (s + 1) s t n (by omega) h
  exact e

theorem navREnv_equiv (N : Numbering c.W c.H num den) : RStarSpec.IdEquiv (navREnv c num den gl rs rp) := by
  intro a b h
  simp only [navREnv] at h
  split at h
  · next p q hp hq =>
    have : p = q := by simpa using h
    rw [← (N.right _ _ hp).1, ← (N.right _ _ hq).1, this]
  · cases h

/-- the IDs of all map cells -/
def cellIds (c : NavCfg) (num : Int × Int → Nat) : List Nat :=
  (List.range c.W.toNat).flatMap fun (x : Nat) => (List.range c.H.toNat).map fun (y : Nat) => num ((x : Int), (y : Int))

theorem cellIds_length : (cellIds c num).length = c.W.toNat * c.H.toNat := by
  simp [cellIds, List.length_flatMap]

theorem mem_cellIds (N : Numbering c.W c.H num den) {i : Nat} {k : Int × Int} (h : den i = some k) : i ∈ cellIds c num := by
  obtain ⟨e, h1, h2, h3, h4⟩ := N.right _ _ h
  have m1 : k.1.toNat ∈ List.range c.W.toNat := List.mem_range.mpr (by omega)
  have m2 : k.2.toNat ∈ List.range c.H.toNat := List.mem_range.mpr (by omega)
  refine List.mem_flatMap.mpr ⟨k.1.toNat, m1, List.mem_map.mpr ⟨k.2.toNat, m2, ?_⟩⟩
  rw [Int.toNat_of_nonneg h1, Int.toNat_of_nonneg h3]; exact e

theorem edge_le {p q : Int × Int} {n : Nat} (h : GridSpec.Edge c.W c.H c.grid c.obs is16 p q n) : n ≤ 2236 * c.obs := by
  obtain ⟨m, l, hm, ⟨_, _, hp⟩, hl, rfl⟩ := h
  have h2 : (q.1 - p.1) * (q.1 - p.1) + (q.2 - p.2) * (q.2 - p.2) ≤ 5 := by
    rcases hm with ⟨a1, a2, a3, a4, _⟩ | ⟨_, h⟩
    · nlinarith
    · omega
  have h1 : l ≤ 2236 := by
    have := hl.1
    by_contra hc
    have : (2237 : Int) ≤ l := by omega
    nlinarith
  rw [Nat.mul_comm 2236]
  exact Nat.mul_le_mul hp h1

/-- on a map small enough the path costs stay below INFINITECOST -/
theorem nav_small (N : Numbering c.W c.H num den) (hd : c.dirs = dirsOf is16) {fwd : Bool} {a : Nat} {p : Int × Int} (ha : den a = some p)
    (hs : 2236 * c.obs * (c.W.toNat * c.H.toNat) * (c.W.toNat * c.H.toNat) < INFINITECOST) :
    RStarSpec.Small (navREnv c num den gl rs rp) fwd a := by
  refine ⟨cellIds c num, 2236 * c.obs, mem_cellIds N ha, ?_, by rw [cellIds_length]; exact hs⟩
  intro u _ t n h
  cases fwd with
  | true =>
    obtain ⟨_, _, q, _, hq, he⟩ := (succs_edge N hd).mp (show (t, n) ∈ (navPEnv c num den).succs gl u from h)
    exact ⟨mem_cellIds N hq, edge_le he⟩
  | false =>
    obtain ⟨q, _, hq, _, he⟩ := (gridEdges_iff N hd).mp (navREnv_preds (gl := gl) (rs := rs) (rp := rp) N hd t u n h)
    exact ⟨mem_cellIds N hq, edge_le he⟩

/-! ### R* -/

section
variable {env0 : REnv} {fwd : Bool} {D ini dec fin thr : Nat} {ops : List RStar.Op} {st st' : RStar} {clk : Nat → Bool} {fuel : Nat}
  {r : RStar.Result} {a b : Nat} {p q : Int × Int}

/-- **C145, forward search.**  Whatever the random successors are: if R* reports success on a grid map, the start followed by
the returned list without its last entry leads, move by move over free cells, from the start cell to the goal cell, and the
reported cost is the cost of these moves. -/
theorem rstar_nav2d_forward (h0 : RStarSpec.REnvOk env0) (hE : RStarSpec.EnvsOk ops)
    (hrun : (RStar.init env0 true D ini dec fin thr).run ops = some st) (hs : RStarSpec.lastStart ops = some a) (hg : RStarSpec.lastGoal ops = some b)
    (hab : a ≠ b) (hr : st.replan clk fuel = .ok (st', r)) (hf : r.found = true)
    (N : Numbering c.W c.H num den) (hd : c.dirs = dirsOf is16) (hmap : RStarSpec.lastEnv env0 ops = navREnv c num den b rs rp)
    (hp : den a = some p) (hq : den b = some q) :
    GridWalk c.W c.H c.grid c.obs is16 p q r.cost ∧
      ∃ l, r.path = l ++ [b] ∧ PathCost (gridEdges c num den) (a :: l) r.cost ∧ (a :: l).getLast? = some b := by
  obtain ⟨l, e1, e2, e3, _⟩ := RStarProps.rstar_forward_path h0 hE hrun hs hg hab hr hf
  rw [hmap] at e3
  have e3 : PathCost ((navPEnv c num den).succs b) (a :: l) r.cost := e3
  obtain ⟨q', hq', w⟩ := gridWalk_of_path N hd e3 e2.1 e2.2 hp
  rw [hq] at hq'; cases hq'
  refine ⟨w, l, e1, ?_, e2.2⟩
  clear w hq hr e1 e2 hf
  generalize a :: l = l' at e3
  generalize r.cost = n at e3
  induction e3 with
  | single s => exact .single s
  | cons hm _ ih => exact .cons ((gridEdges_iff N hd).mpr ((succs_edge N hd).mp hm).2) ih

/-- **C145, backward search.** -/
theorem rstar_nav2d_backward (h0 : RStarSpec.REnvOk env0) (hE : RStarSpec.EnvsOk ops)
    (hrun : (RStar.init env0 false D ini dec fin thr).run ops = some st) (hs : RStarSpec.lastStart ops = some a) (hg : RStarSpec.lastGoal ops = some b)
    (hab : a ≠ b) (hr : st.replan clk fuel = .ok (st', r)) (hf : r.found = true)
    (N : Numbering c.W c.H num den) (hd : c.dirs = dirsOf is16) (hmap : RStarSpec.lastEnv env0 ops = navREnv c num den b rs rp)
    (hp : den a = some p) (hq : den b = some q) :
    GridWalk c.W c.H c.grid c.obs is16 p q r.cost ∧ FromTo r.path a b ∧ PathCost (gridEdges c num den) r.path r.cost := by
  obtain ⟨e1, e2⟩ := RStarProps.rstar_backward_path (E := gridEdges c num den) h0 hE
    (by rw [hmap]; exact navREnv_preds N hd) hrun hs hg hab hr hf
  obtain ⟨q', hq', w⟩ := gridWalk_of_edges N hd e2 e1.1 e1.2 hp
  rw [hq] at hq'; cases hq'
  exact ⟨w, e1, e2⟩

/-- **C145, exceptions.**  On a map whose paths stay below INFINITECOST, with distinct start and goal cells, R* raises no exception
(other than a full heap; `noTermination`: the number of iterations allowed in the model was too small), whatever
the random neighbours are. -/
theorem rstar_nav2d_no_exception {e : RErr} (h0 : RStarSpec.REnvOk env0) (hE : RStarSpec.EnvsOk ops)
    (hrun : (RStar.init env0 fwd D ini dec fin thr).run ops = some st) (hs : RStarSpec.lastStart ops = some a) (hg : RStarSpec.lastGoal ops = some b)
    (hab : a ≠ b) (N : Numbering c.W c.H num den) (hd : c.dirs = dirsOf is16) (hmap : RStarSpec.lastEnv env0 ops = navREnv c num den b rs rp)
    (hp : den a = some p) (hq : den b = some q)
    (hsm : 2236 * c.obs * (c.W.toNat * c.H.toNat) * (c.W.toNat * c.H.toNat) < INFINITECOST)
    (hr : st.replan clk fuel = .error e) : e = .heap .full ∨ e = .noTermination := by
  refine RStarProps.rstar_no_exception h0 hE hrun hs hg hab (by rw [hmap]; exact navREnv_equiv N) ?_ hr
  rw [hmap]
  cases fwd with
  | true => exact nav_small N hd hp hsm
  | false => exact nav_small N hd hq hsm

end

/-! ### ANA* -/

section
variable {env0 : PEnv} {fwd : Bool} {ops : List ANA.Op} {st st' : ANA} {bs : List Nat} {res : ANA.Result} {a b : Nat} {p q : Int × Int}

/-- **C146, ANA*.** -/
theorem ana_nav2d_path (he : EnvOk env0) (hok : ∀ op ∈ ops, ANASpec.OpOk op) (hrd : ANASpec.Ready fwd bs .new ops)
    (hrun : (ANA.init env0 fwd).run ops = some st) (ha : ANASpec.lastStart ops = some a) (hb : ANASpec.lastGoal ops = some b)
    (hr : st.replan bs = .ok (st', res)) (hf : res.found = true)
    (N : Numbering c.W c.H num den) (hd : c.dirs = dirsOf is16) (hmap : ANASpec.lastEnv env0 ops = navPEnv c num den)
    (hp : den a = some p) (hq : den b = some q) :
    FromTo res.path a b ∧ res.path.Nodup ∧ ∃ n, PathCost ((navPEnv c num den).succs b) res.path n ∧
      GridWalk c.W c.H c.grid c.obs is16 p q n ∧ n ≤ res.cost := by
  obtain ⟨h1, h2, n, h3, h4, _⟩ := (ANAProps.replan_path_sound he hok hrd hrun ha hb hr).1 hf
  rw [hmap] at h3
  obtain ⟨q', hq', w⟩ := gridWalk_of_path N hd h3 h1.1 h1.2 hp
  rw [hq] at hq'; cases hq'
  exact ⟨h1, h2, n, h3, w, h4⟩

end

/-! ### MHA* -/

section
variable {env0 : PEnv} {hs0 : Nat → Nat → Nat → Nat} {hcount D : Nat} {ops : List MHA.Op} {st st' : MHA} {par : MHA.Params} {budget : Nat}
  {res : MHA.Result} {a b : Nat} {p q : Int × Int}

/-- **C146, MHA*.**  With the heuristic of the environment as the anchor and arbitrary other heuristics. -/
theorem mha_nav2d_path (cl : MHAProps.Called env0 hs0 hcount D ops st par a b) (hr : st.replan par budget = .ok (st', res))
    (hf : res.found = true) (hne : res.path ≠ [b])
    (N : Numbering c.W c.H num den) (hd : c.dirs = dirsOf is16) (hmap : (MHASpec.lastEnv env0 hs0 ops).1 = navPEnv c num den)
    (hp : den a = some p) (hq : den b = some q) :
    FromTo res.path a b ∧ ∃ n : Nat, PathCost ((navPEnv c num den).succs b) res.path n ∧ GridWalk c.W c.H c.grid c.obs is16 p q n ∧ (n : Int) ≤ res.cost := by
  obtain ⟨h1, _, _, n, h3, h4, _⟩ := MHAProps.replan_path_sound cl hr hf hne
  rw [hmap] at h3
  obtain ⟨q', hq', w⟩ := gridWalk_of_path N hd h3 h1.1 h1.2 hp
  rw [hq] at hq'; cases hq'
  exact ⟨h1, n, h3, w, h4⟩

/-- **C146, MHA*: bound.**  The cost reported is at most MHA eps times (1.001 eps + 0.001) times the cost of every walk over
the map (eps = e / D, MHA eps = m / D). -/
theorem mha_nav2d_bound (cl : MHAProps.Called env0 hs0 hcount D ops st par a b) (hr : st.replan par budget = .ok (st', res))
    (hf : res.found = true) (hD : 0 < D)
    (N : Numbering c.W c.H num den) (hd : c.dirs = dirsOf is16) (hmap : (MHASpec.lastEnv env0 hs0 ops).1 = navPEnv c num den)
    (hanc : (MHASpec.lastEnv env0 hs0 ops).2 0 = (navPEnv c num den).hGoal)
    (hp : den a = some p) (hq : den b = some q) {n : Nat} (w : GridWalk c.W c.H c.grid c.obs is16 p q n) :
    (D : Int) * ((1000 * D : Nat) * res.cost) ≤ MHASpec.lastMhaEps D ops * ((1001 * par.initEps + D : Nat) * n) := by
  obtain ⟨n', hn, w'⟩ := walk_of_gridWalk N hd hp hq w
  have h := nav_heur (e := par.initEps) N hd hD true
  unfold HeurUpTo at h
  rw [if_pos rfl] at h
  have hz : (navPEnv c num den).hGoal b b = 0 := by simp only [navPEnv, hq]; simp [eucl]
  have := (MHAProps.replan_bound_general cl hr hf (N := 1001 * par.initEps + D) (M := 1000 * D) (w := n')
    (by have := cl.initEps; nlinarith) (by rw [hanc]; exact hz) (by rw [hmap, hanc]; exact (h b).2) (by rw [hmap]; exact w')).1
  refine le_trans this ?_
  refine Int.mul_le_mul_of_nonneg_left ?_ (by omega)
  refine Int.mul_le_mul_of_nonneg_left (by omega) (by omega)

end

/-! ### Lazy ARA* -/

section
variable {wf : (LazyElem → Nat) → List LazyElem → Prop} {Q : LQueue} {env0 : LEnv} {fwd : Bool} {D ie fe de : Nat} {fs : Bool}
  {ops : List LazyARA.Op} {st st' : LazyARA} {bs : List Nat} {res : LazyARA.Result} {a b s0 : Nat} {p q : Int × Int}

theorem navL_edge {x y n : Nat} : LazySpec.Edge (navLEnv c num den s0 gl) x y n ↔ (y, n) ∈ (navPEnv c num den).succs gl x := by
  unfold LazySpec.Edge navLEnv
  simp

theorem navL_path {l : List Nat} {n : Nat} (h : LazySpec.RPath (LazySpec.Edge (navLEnv c num den s0 gl)) l n) :
    PathCost ((navPEnv c num den).succs gl) l n := by
  induction h with
  | single s => exact .single s
  | cons h _ ih => exact .cons (navL_edge.mp h) ih

theorem navL_walk {x y n : Nat} (h : Walk ((navPEnv c num den).succs gl) x y n) : LazySpec.RWalk (LazySpec.Edge (navLEnv c num den s0 gl)) x y n := by
  induction h with
  | nil => exact .nil
  | snoc _ h ih => exact ih.snoc (navL_edge.mpr h)

/-- **C146, Lazy ARA*.**  On a grid map no edge needs evaluation, so the path is always valid, also when the clock ends the
search. -/
theorem lazy_nav2d_path (hQ : LazySpec.QueueOk Q wf) (hok : LazyProps.HistOk true env0 (ops ++ [.replan bs]))
    (hrun : (LazyARA.init env0 Q true D ie fe de fs).run ops = some st) (hid : LazySpec.ids ops (none, none) = (some a, some b))
    (hr : st.replan bs = .ok (st', res)) (hf : res.found = true)
    (N : Numbering c.W c.H num den) (hd : c.dirs = dirsOf is16) (hmap : LazySpec.lastEnv env0 ops = navLEnv c num den a b)
    (hp : den a = some p) (hq : den b = some q) :
    FromTo res.path a b ∧ ∃ n, PathCost ((navPEnv c num den).succs b) res.path n ∧ GridWalk c.W c.H c.grid c.obs is16 p q n := by
  obtain ⟨h1, h2, _, _, h3⟩ := LazyProps.path_sound hQ hok hrun hid hr hf
  rw [hmap] at h3
  have key : ∃ k, PathCost ((navPEnv c num den).succs b) res.path k := by
    rcases h3 with ⟨k, h⟩ | ⟨l, x, k, e1, e2, e3, cc, f, hm⟩
    · exact ⟨k, navL_path h⟩
    · have hm : (b, cc) ∈ (navPEnv c num den).succs b x := by
        simp only [navLEnv, List.mem_map] at hm
        obtain ⟨⟨y1, y2⟩, hy, e⟩ := hm
        simp only [Prod.mk.injEq] at e
        obtain ⟨f1, f2, _⟩ := e
        subst f2
        rw [f1] at hy; exact hy
      rw [e1]
      exact ⟨_, ARA.pathCost_snoc (navL_path e3) e2 hm⟩
  obtain ⟨k, h⟩ := key
  obtain ⟨q', hq', w⟩ := gridWalk_of_path N hd h h1 h2 hp
  rw [hq] at hq'; cases hq'
  exact ⟨⟨h1, h2⟩, k, h, w⟩

/-- **C146, Lazy ARA*: bound.**  If the clock ends no pass of the search, the path costs at most 1.001 eps + 0.001 times any walk over the map. -/
theorem lazy_nav2d_bound (hQ : LazySpec.QueueOk Q wf) (hok : LazyProps.HistOk true env0 (ops ++ [.replan bs]))
    (hrun : (LazyARA.init env0 Q true D ie fe de fs).run ops = some st) (hid : LazySpec.ids ops (none, none) = (some a, some b))
    (hr : st.replan bs = .ok (st', res)) (hbs : bs ≠ []) (hcut : ∀ x ∈ res.passes, x.out = false) (hD : 0 < D)
    {e : Nat} (he : (LazySpec.lastParams (ie, fe, de, fs) ops).1 = e) (hDe : D ≤ e)
    (N : Numbering c.W c.H num den) (hd : c.dirs = dirsOf is16) (hmap : LazySpec.lastEnv env0 ops = navLEnv c num den a b)
    (hp : den a = some p) (hq : den b = some q) (hsm : e * eucl p q / D < INFINITECOST)
    {n : Nat} (w : GridWalk c.W c.H c.grid c.obs is16 p q n) :
    (res.found = true → ∃ k, PathCost ((navPEnv c num den).succs b) res.path k ∧ 1000 * D * k ≤ (1001 * e + D) * n) ∧
    (res.found = false → 1000 * D * INFINITECOST ≤ (1001 * e + D) * n) := by
  obtain ⟨n', hn, w'⟩ := walk_of_gridWalk N hd hp hq w
  have h := nav_heur (e := e) N hd hD true
  unfold HeurUpTo at h
  rw [if_pos rfl] at h
  have hz : (navPEnv c num den).hGoal b b = 0 := by simp only [navPEnv, hq]; simp [eucl]
  have hu : LazySpec.HeurUpTo (navLEnv c num den a b) D e (1001 * e + D) (1000 * D) := by
    intro x y k hk
    exact (h b).2 x y k (navL_edge.mp hk)
  have hlow : LazySpec.LazyLower (navLEnv c num den a b) := by
    intro x y k hk
    simp [navLEnv] at hk
  have hpre : e * (navLEnv c num den a b).hGoalPre a / D < INFINITECOST := by
    simp only [navLEnv, navPEnv, hp, hq]; exact hsm
  obtain ⟨r1, r2⟩ := LazyProps.bound_general hQ hok hrun hid hr hbs hcut (by rw [hmap]; exact hlow) he (N := 1001 * e + D) (M := 1000 * D)
    (by nlinarith) (by rw [hmap]; exact hu) (by rw [hmap]; exact hz) (by rw [hmap]; exact hpre)
  rw [hmap] at r1 r2
  constructor
  · intro hf
    obtain ⟨k, k1, k2⟩ := r1 hf
    exact ⟨k, navL_path k1, Nat.le_trans (k2 n' (navL_walk w')) (Nat.mul_le_mul_left _ hn)⟩
  · intro hf
    exact Nat.le_trans ((r2 hf).2 n' (navL_walk w')) (Nat.mul_le_mul_left _ hn)

end
end
end Sbpl.Nav2DProps
