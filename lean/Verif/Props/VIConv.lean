import Verif.Proofs.VIConv
import Verif.Props.VIGraphs
import Mathlib.Order.Interval.Set.Infinite
import Mathlib.Data.Int.Interval
import Mathlib.Data.Set.Finite.Lattice
import Mathlib.Data.Finite.Prod
/-!
# C165: value iteration on finite graphs converges, whatever the heuristic

(C124 shows convergence for consistent heuristics; the heuristics of maps and lattices are not exactly consistent.)
-/

namespace Sbpl
namespace VIConvProps
open GraphSpec MDP VISpec VI VIProps VIAnyProps VIConv

variable {succs : Nat → List (Nat × Nat)} {acts : Nat → List Action} {h : Nat → Nat}

theorem heur_le : ∀ {S : List Nat} {s : Nat}, s ∈ S → h s ≤ (S.map h).sum
  | [], _, hs => by cases hs
  | x :: S, s, hs => by
    simp only [List.map_cons, List.sum_cons]
    rcases List.mem_cons.mp hs with rfl | hs
    · omega
    · have := heur_le hs; omega

theorem bound_exists {f : Nat → Nat → Prop} {K : Nat} : ∀ {S : List Nat}, (∀ s ∈ S, ∃ n, f s n) → ∃ B, ∀ s ∈ S, ∃ n, f s n ∧ K * n ≤ B
  | [], _ => ⟨0, fun s hs => by cases hs⟩
  | x :: S, hx => by
    obtain ⟨B, hB⟩ := bound_exists (K := K) (fun s hs => hx s (List.mem_cons_of_mem _ hs))
    obtain ⟨n, hn⟩ := hx x List.mem_cons_self
    refine ⟨B + K * n, fun s hs => ?_⟩
    rcases List.mem_cons.mp hs with rfl | hs
    · exact ⟨n, hn, by omega⟩
    · obtain ⟨m, h1, h2⟩ := hB s hs
      exact ⟨m, h1, by omega⟩

/-- **C165.**  On a graph with edge costs at least 1 whose states (a finite set, closed under edges, that contains the start) can all reach the goal, replan of a new planner with enough time stops because
the values have converged.  The heuristic is any function to the natural numbers that is 0 at the goal. -/
theorem graph_converges (he : EdgeActions succs acts) {st gl : Nat} (h0 : h gl = 0) (hc : ∀ s t c, (t, c) ∈ succs s → 1 ≤ c) {S : List Nat} (hn : S.Nodup)
    (hS : ∀ s ∈ S, ∀ t c, (t, c) ∈ succs s → t ∈ S) (hst : st ∈ S) (hr : ∀ s ∈ S, ∃ n, Walk succs s gl n) (bell : ℚ) (sol : List Int) :
    ∃ N, ∀ (clk : Nat → Bool) (fuel : Nat), N ≤ fuel → ∃ r, replan (vEnvOf acts h) st gl clk fuel (fresh (vEnvOf acts h)) bell sol = some r ∧ ((∀ k, clk k = true) → r.bell ≤ ERRDELTA) := by
  have g : Gr succs S gl := ⟨hn, hS, hc, hr⟩
  have hp := graph_proper (h := h) he
  have h0' : (vEnvOf acts h).h gl = 0 := by rw [vh_nat, h0]; rfl
  have hw0 : Wk (vEnvOf acts h) gl (fresh (vEnvOf acts h)) := fresh_wk h0' vh_nonneg
  obtain ⟨K, hK⟩ : ∃ K, K = (S.map h).sum + 1 := ⟨_, rfl⟩
  obtain ⟨B, hB⟩ := bound_exists (K := K) hr
  have hv0 : VInv succs S gl K (fresh (vEnvOf acts h)).v := by
    have e : ∀ n : Nat, (fresh (vEnvOf acts h)).v n = h n := fun n => by
      show (((vEnvOf acts h).h n : Int) : ℚ) = h n
      rw [vh_nat]; simp
    refine ⟨fun n _ => ⟨h n, e n⟩, fun s hs n w => ?_⟩
    rw [e]
    have : h s ≤ K * n := by
      rcases walk_head w with ⟨e, _⟩ | ⟨t, c, n', h1, _, e⟩
      · rw [e, h0]; omega
      · have h2 := hc s t c h1
        have h3 := heur_le (h := h) hs
        have h4 : K * 1 ≤ K * n := Nat.mul_le_mul_left K (by omega)
        omega
    exact_mod_cast this
  obtain ⟨N, hN⟩ : ∃ N : Nat, F succs B S (fresh (vEnvOf acts h)) + S.length * ((2 * S.length + 1 : Nat) : ℤ) ^ B + 1 < N :=
    ⟨(F succs B S (fresh (vEnvOf acts h)) + S.length * ((2 * S.length + 1 : Nat) : ℤ) ^ B + 1).toNat + 1, by push_cast; have := Int.self_le_toNat (F succs B S (fresh (vEnvOf acts h)) + S.length * ((2 * S.length + 1 : Nat) : ℤ) ^ B + 1); push_cast at this; omega⟩
  refine ⟨N + S.length + 1, fun clk fuel hf => ?_⟩
  obtain ⟨p1, b1, h1, hv1, h3⟩ := iterate_conv he (by omega) g hB hst (clk := clk) (fuel := fuel) (by omega) (n := fuel) (k := 0) (p := fresh (vEnvOf acts h)) (b := bell) hw0 hv0 (fun _ => Nat.le_refl _)
    (fun _ => by have : (N : ℤ) ≤ fuel := by exact_mod_cast (by omega : N ≤ fuel)
                 linarith) (by omega)
  have k1 := (iterate_pres hp (P := fun _ => True) (fun _ _ _ _ _ => trivial) hw0 trivial h1).1
  have k2 := iterate_wk hp hw0 (fun _ => Nat.le_refl _) h1
  obtain ⟨⟨m, p2⟩, h2⟩ := policyOf_ends (start := (st : Int)) (goal := gl) k2.1 (S := S.map (fun n : Nat => (n : Int))) (List.mem_map.mpr ⟨st, hst, rfl⟩)
    (fun s a hs _ hb o ho => closedInt he g s hs a (k1.best s a hb).2 o ho) (fuel := fuel) (by rw [List.length_map]; omega)
  refine ⟨⟨p2, b1, 1, sol, m, evaluate m st gl false fuel⟩, ?_, h3⟩
  unfold replan
  rw [show ({ fresh (vEnvOf acts h) with iteration := 0 } : St) = fresh (vEnvOf acts h) from rfl, h1]
  dsimp only
  rw [h2]

/-- the loop that is never interrupted ends only by convergence -/
theorem iterate_stops {env : VEnv} {start goal : Int} {clk : Nat → Bool} (hclk : ∀ k, clk k = true) {fuel : Nat} : ∀ {n k : Nat} {p : St} {b : ℚ} {p' : St} {b' : ℚ},
    iterate env start goal clk fuel n k p b = some (p', b') → b' ≤ ERRDELTA
  | 0, k, p, b, p', b', hh => by cases hh
  | n + 1, k, p, b, p', b', hh => by
    rw [iterate] at hh
    split at hh
    · split at hh
      · cases hh
      · exact iterate_stops hclk hh
    · rename_i hc
      cases hh
      by_contra hb
      exact hc ⟨hclk k, not_le.mp hb⟩

theorem replan_stops {env : VEnv} {start goal : Int} {clk : Nat → Bool} (hclk : ∀ k, clk k = true) {fuel : Nat} {p : St} {bell : ℚ} {sol : List Int} {r : Res}
    (hr : replan env start goal clk fuel p bell sol = some r) : r.bell ≤ ERRDELTA := by
  obtain ⟨p1, b1, p2, m, h1, _, rfl⟩ := replan_parts hr
  exact iterate_stops hclk h1

/-- a finite set of IDs as a list -/
theorem list_of_finite {T : Nat → Prop} (hT : {n | T n}.Finite) : ∃ S : List Nat, S.Nodup ∧ ∀ n, n ∈ S ↔ T n :=
  ⟨hT.toFinset.toList, hT.toFinset.nodup_toList, fun n => by rw [Finset.mem_toList]; simp⟩

section nav
open Nav2DProps GridSpec
variable {c : NavCfg} {is16 : Bool} {num : Int × Int → Nat} {den : Nat → Option (Int × Int)}

theorem touched_rev {dx dy cx cy : Int} (ht : Touched dx dy cx cy) : Touched (-dx) (-dy) (cx - dx) (cy - dy) := by
  obtain ⟨p, q, h1, h2, h3, ⟨h4, h5⟩, h6, h7⟩ := ht
  refine ⟨q - p, q, by omega, by omega, h3, ⟨?_, ?_⟩, ?_, ?_⟩ <;> nlinarith

theorem isMove_rev {dx dy : Int} (hm : IsMove is16 dx dy) : IsMove is16 (-dx) (-dy) := by
  rcases hm with ⟨h1, h2, h3, h4, h5⟩ | ⟨h1, h2⟩
  · exact .inl ⟨by omega, by omega, by omega, by omega, by omega⟩
  · exact .inr ⟨h1, by nlinarith⟩

/-- a greatest cost over the finitely many cells of the map that have a property -/
theorem exists_max_cost {W H : Int} {grid : Int → Int → Nat} {P : Int → Int → Prop} (hP : ∃ x y, P x y) (hb : ∃ M, ∀ x y, P x y → grid x y ≤ M) :
    ∃ m, (∀ x y, P x y → grid x y ≤ m) ∧ ∃ x y, P x y ∧ grid x y = m := by
  obtain ⟨M, hM⟩ := hb
  induction M with
  | zero =>
    obtain ⟨x, y, h⟩ := hP
    exact ⟨0, hM, x, y, h, by have := hM x y h; omega⟩
  | succ M ih =>
    by_cases hx : ∃ x y, P x y ∧ grid x y = M + 1
    · exact ⟨M + 1, hM, hx⟩
    · exact ih (fun x y h => by
        have h1 := hM x y h
        have h2 : grid x y ≠ M + 1 := fun e => hx ⟨x, y, h, e⟩
        omega)

/-- every move between free cells can be made backwards -/
theorem edge_reverse {W H : Int} {grid : Int → Int → Nat} {obs : Nat} {p q : Int × Int} {n : Nat} (he : Edge W H grid obs is16 p q n) (hp : InMap W H p.1 p.2) (hf : grid p.1 p.2 < obs) :
    ∃ n', Edge W H grid obs is16 q p n' := by
  obtain ⟨m, l, h1, ⟨h2, _, h4⟩, h5, _⟩ := he
  have e1 : p.1 - q.1 = -(q.1 - p.1) := by omega
  have e2 : p.2 - q.2 = -(q.2 - p.2) := by omega
  have key : ∀ cx cy, Touched (p.1 - q.1) (p.2 - q.2) cx cy → InMap W H (q.1 + cx) (q.2 + cy) ∧ grid (q.1 + cx) (q.2 + cy) < obs := by
    intro cx cy ht
    have ht' := touched_rev ht
    have a1 : -(p.1 - q.1) = q.1 - p.1 := by omega
    have a2 : -(p.2 - q.2) = q.2 - p.2 := by omega
    rw [a1, a2] at ht'
    have b1 : q.1 + cx = p.1 + (cx - (p.1 - q.1)) := by omega
    have b2 : q.2 + cy = p.2 + (cy - (p.2 - q.2)) := by omega
    rw [b1, b2]
    by_cases h0 : cx - (p.1 - q.1) = 0 ∧ cy - (p.2 - q.2) = 0
    · rw [h0.1, h0.2, Int.add_zero, Int.add_zero]; exact ⟨hp, hf⟩
    · obtain ⟨k1, k2⟩ := h2 _ _ ht' h0
      exact ⟨k1, by omega⟩
  obtain ⟨m', k1, x, y, ⟨cx, cy, k2, k3, rfl, rfl⟩, k4⟩ := exists_max_cost (W := W) (H := H) (grid := grid) (P := fun x y => ∃ cx cy, Touched (p.1 - q.1) (p.2 - q.2) cx cy ∧ ¬(cx = 0 ∧ cy = 0) ∧ x = q.1 + cx ∧ y = q.2 + cy)
    ⟨p.1, p.2, p.1 - q.1, p.2 - q.2, ⟨1, 1, by omega, by omega, by omega, ⟨by omega, by omega⟩, by omega, by omega⟩, by
      rcases h1 with ⟨_, _, _, _, h⟩ | ⟨_, h⟩
      · intro hz; exact h (by omega)
      · rintro ⟨z1, z2⟩
        have z1 : q.1 - p.1 = 0 := by omega
        have z2 : q.2 - p.2 = 0 := by omega
        rw [z1, z2] at h; simp at h, by omega, by omega⟩
    ⟨obs, by
      rintro x y ⟨cx, cy, k1, _, rfl, rfl⟩
      exact (key cx cy k1).2.le⟩
  refine ⟨(m' + 1) * l, m', l, ?_, ⟨fun cx cy k1' k2' => ⟨(key cx cy k1').1, k1 _ _ ⟨cx, cy, k1', k2', rfl, rfl⟩⟩, ⟨cx, cy, k2, k3, k4⟩, ?_⟩, ?_, rfl⟩
  · rw [e1, e2]; exact isMove_rev h1
  · rw [← k4]; exact (key cx cy k2).2
  · rw [e1, e2]
    unfold IsLength at h5 ⊢
    simp only [Int.neg_mul_neg]
    exact h5

/-- the end of a move is a free cell of the map -/
theorem edge_end {W H : Int} {grid : Int → Int → Nat} {obs : Nat} {p q : Int × Int} {n : Nat} (he : Edge W H grid obs is16 p q n) : InMap W H q.1 q.2 ∧ grid q.1 q.2 < obs := by
  obtain ⟨m, l, h1, ⟨h2, _, h4⟩, h5, _⟩ := he
  have ht : Touched (q.1 - p.1) (q.2 - p.2) (q.1 - p.1) (q.2 - p.2) := ⟨1, 1, by omega, by omega, by omega, ⟨by omega, by omega⟩, by omega, by omega⟩
  have hz : ¬(q.1 - p.1 = 0 ∧ q.2 - p.2 = 0) := by
    rcases h1 with ⟨_, _, _, _, h⟩ | ⟨_, h⟩
    · exact h
    · rintro ⟨z1, z2⟩; rw [z1, z2] at h; simp at h
  obtain ⟨k1, k2⟩ := h2 _ _ ht hz
  have a1 : p.1 + (q.1 - p.1) = q.1 := by omega
  have a2 : p.2 + (q.2 - p.2) = q.2 := by omega
  rw [a1, a2] at k1 k2
  exact ⟨k1, by omega⟩

theorem gridWalk_cons {W H : Int} {grid : Int → Int → Nat} {obs : Nat} {p r q : Int × Int} {m k : Nat} (he : Edge W H grid obs is16 p r m)
    (w : GridWalk W H grid obs is16 r q k) : GridWalk W H grid obs is16 p q (m + k) := by
  induction w with
  | nil => have := GridWalk.snoc (is16 := is16) (a := p) .nil he; simpa using this
  | snoc _ e ih => have := ih.snoc e; rwa [Nat.add_assoc] at this

/-- **C165.**  On a grid map with a free start cell from which there is a way to the goal, a new value iteration planner with enough time stops because the values have converged
(and then its policy is a way that costs at most 1415/1414 times any other: C161). -/
theorem vi_nav2d_converges (N : Numbering c.W c.H num den) (hd : c.dirs = dirsOf is16) {a b : Nat} {p q : Int × Int} (hp : den a = some p) (hq : den b = some q)
    (hfree : c.grid p.1 p.2 < c.obs) {n : Nat} (w : GridWalk c.W c.H c.grid c.obs is16 p q n)
    {acts : Nat → List Action} (he : EdgeActions ((navPEnv c num den).succs b) acts) (bell : ℚ) (sol : List Int) :
    ∃ M, ∀ (clk : Nat → Bool) (fuel : Nat), M ≤ fuel → ∃ r, replan (vEnvOf acts ((navPEnv c num den).hGoal b)) a b clk fuel (fresh (vEnvOf acts ((navPEnv c num den).hGoal b))) bell sol = some r ∧
      ((∀ k, clk k = true) → r.bell ≤ ERRDELTA) := by
  have hh := nav_heur_one N hd (D := 1) (by omega) true
  simp only [Sbpl.PlannerSpec.HeurUpTo, if_true] at hh
  -- free cells from which the goal can be reached
  have hfin : {i : Nat | ∃ r, den i = some r ∧ c.grid r.1 r.2 < c.obs ∧ ∃ k, GridWalk c.W c.H c.grid c.obs is16 r q k}.Finite := by
    have hf : (Set.Icc (0 : Int) c.W ×ˢ Set.Icc (0 : Int) c.H).Finite := Set.Finite.prod (Set.finite_Icc _ _) (Set.finite_Icc _ _)
    refine (hf.image num).subset ?_
    rintro i ⟨r, h1, _⟩
    obtain ⟨h2, h3, h4, h5, h6⟩ := N.right i r h1
    exact ⟨r, ⟨⟨h3, h4.le⟩, ⟨h5, h6.le⟩⟩, h2⟩
  obtain ⟨S, hn, hS⟩ := list_of_finite hfin
  refine graph_converges he (hh b).1 (fun s t n h => ?_) hn (fun s hs t n h => ?_) ((hS a).mpr ⟨p, hp, hfree, n, w⟩) (fun s hs => ?_) bell sol
  · obtain ⟨_, p', q', _, _, he'⟩ := (Nav2DProps.succs_edge N hd).mp h
    have := (Sbpl.heur_edge he' p').2.2
    omega
  · obtain ⟨r, k1, k2, k, k3⟩ := (hS s).mp hs
    obtain ⟨_, p', q', hp', hq', he'⟩ := (Nav2DProps.succs_edge N hd).mp h
    rw [k1] at hp'; cases hp'
    obtain ⟨n', back⟩ := edge_reverse he' (N.right _ _ k1).2 k2
    exact (hS t).mpr ⟨q', hq', (edge_end he').2, _, gridWalk_cons back k3⟩
  · obtain ⟨r, k1, k2, k, k3⟩ := (hS s).mp hs
    obtain ⟨n', _, w'⟩ := walk_of_gridWalk N hd k1 hq k3
    exact ⟨n', w'⟩

/-- **C165.**  So, if no time limit stops it, a new planner on a map with a free start cell returns exactly if there is a way. -/
theorem vi_nav2d_stops_iff (N : Numbering c.W c.H num den) (hd : c.dirs = dirsOf is16) {a b : Nat} {p q : Int × Int} (hp : den a = some p) (hq : den b = some q)
    (hfree : c.grid p.1 p.2 < c.obs) {acts : Nat → List Action} (he : EdgeActions ((navPEnv c num den).succs b) acts) {bell : ℚ} (hb : ERRDELTA < bell) (sol : List Int) :
    (∃ fuel r, replan (vEnvOf acts ((navPEnv c num den).hGoal b)) a b (fun _ => true) fuel (fresh (vEnvOf acts ((navPEnv c num den).hGoal b))) bell sol = some r) ↔
      ∃ n, GridWalk c.W c.H c.grid c.obs is16 p q n := by
  constructor
  · rintro ⟨fuel, r, hr⟩
    obtain ⟨l, n, _, _, _, w, _⟩ := VIGraphProps.vi_nav2d N hd hp hq he hb hr (replan_stops (fun _ => rfl) hr)
    exact ⟨n, w⟩
  · rintro ⟨n, w⟩
    obtain ⟨M, hM⟩ := vi_nav2d_converges N hd hp hq hfree w he bell sol
    obtain ⟨r, hr, _⟩ := hM (fun _ => true) M (Nat.le_refl _)
    exact ⟨M, r, hr⟩

end nav

/-- the states met from the start form such a set -/
theorem reachable_converges (he : EdgeActions succs acts) {st gl : Nat} (h0 : h gl = 0) (hc : ∀ s t c, (t, c) ∈ succs s → 1 ≤ c) (hfin : {i | ∃ n, Walk succs st i n}.Finite)
    (hr : ∀ s k, Walk succs st s k → ∃ n, Walk succs s gl n) (bell : ℚ) (sol : List Int) :
    ∃ N, ∀ (clk : Nat → Bool) (fuel : Nat), N ≤ fuel → ∃ r, replan (vEnvOf acts h) st gl clk fuel (fresh (vEnvOf acts h)) bell sol = some r ∧ ((∀ k, clk k = true) → r.bell ≤ ERRDELTA) := by
  obtain ⟨S, hn, hS⟩ := list_of_finite hfin
  refine graph_converges he h0 hc hn (fun s hs t c hm => ?_) ((hS st).mpr ⟨0, .nil⟩) (fun s hs => ?_) bell sol
  · obtain ⟨n, w⟩ := (hS s).mp hs
    exact (hS t).mpr ⟨_, w.snoc hm⟩
  · obtain ⟨n, w⟩ := (hS s).mp hs
    exact hr s n w

section xyt
open XEnv XCfg XSpec XYTProps XYTARAProps XHeurProps
variable {s : Setup} {num : XKey → Nat} {den : Nat → Option XKey} {hg hs : XKey → XKey → Int} {vel : ℚ}

/-- **C165.**  On a lattice on which the goal can be reached from every pose that can be reached from the start, a new value iteration planner with enough time stops because the values have converged. -/
theorem vi_xyt_converges {xops : List XEnv.Op} {stx : XEnv} (hx : XSpec.Hist s xops stx) (N : XNumbering s num den) {a b : Nat} {p q : XKey} (hp : den a = some p) (hq : den b = some q)
    (hv : 0 < vel) {m : Nat} (hm : CostAtLeast s m) (hm1 : 1 ≤ m) (hG : ∀ g, InRange s g → HeurFrom s vel (costs s xops) g (hg g))
    (hr : ∀ r n, LWalk s (costs s xops) p r n → ∃ n', LWalk s (costs s xops) r q n')
    {acts : Nat → List Action} (he : EdgeActions ((xytPEnv stx.cfg num den hg hs).succs b) acts) (bell : ℚ) (sol : List Int) :
    ∃ M, ∀ (clk : Nat → Bool) (fuel : Nat), M ≤ fuel → ∃ r, replan (vEnvOf acts ((xytPEnv stx.cfg num den hg hs).hGoal b)) a b clk fuel (fresh (vEnvOf acts ((xytPEnv stx.cfg num den hg hs).hGoal b))) bell sol = some r ∧
      ((∀ k, clk k = true) → r.bell ≤ ERRDELTA) := by
  obtain ⟨ix, eg, -, -⟩ := hist_inv hx
  have stc := ix.stc
  have ok := hx.1
  rw [← eg] at hG hr
  have h0 : (xytPEnv stx.cfg num den hg hs).hGoal b b = 0 := by
    simp only [xytPEnv, hq]
    rw [heur_origin hv (hG q (N.right _ _ hq).2) (N.right _ _ hq).2]; rfl
  have key : ∀ i n, Walk ((xytPEnv stx.cfg num den hg hs).succs b) a i n → ∃ r, den i = some r ∧ LWalk s stx.cfg.grid p r n := by
    intro i n w
    induction w with
    | nil => exact ⟨p, hp, .nil⟩
    | @snoc x y n c _ hmem ih =>
      obtain ⟨r, h1, h2⟩ := ih
      obtain ⟨_, p', q', mm, hp', hq', ed⟩ := (XYTARAProps.succs_edge stc ok N).mp hmem
      rw [h1] at hp'; cases hp'
      exact ⟨q', hq', h2.snoc mm ed⟩
  refine reachable_converges he h0 (fun i j n hmem => ?_) ?_ (fun i n w => ?_) bell sol
  · obtain ⟨_, p', q', mm, hp', hq', ed⟩ := (XYTARAProps.succs_edge stc ok N).mp hmem
    exact le_trans hm1 (edge_cost_ge hm ed)
  · have hf : (Set.Icc (0 : Int) s.W ×ˢ (Set.Icc (0 : Int) s.H ×ˢ Set.Icc (0 : Int) s.T)).Finite := Set.Finite.prod (Set.finite_Icc _ _) (Set.Finite.prod (Set.finite_Icc _ _) (Set.finite_Icc _ _))
    refine (hf.image num).subset ?_
    rintro i ⟨n, w⟩
    obtain ⟨r, h1, _⟩ := key i n w
    obtain ⟨h2, ⟨h3, h4, h5, h6⟩, h7, h8⟩ := N.right i r h1
    exact ⟨r, ⟨⟨h3, h4.le⟩, ⟨h5, h6.le⟩, h7, h8.le⟩, h2⟩
  · obtain ⟨r, h1, h2⟩ := key i n w
    obtain ⟨n', w'⟩ := hr r n h2
    obtain ⟨n2, _, w2⟩ := walk_of_lwalk (hg := hg) (hs := hs) stc ok N h1 hq w'
    exact ⟨n2, w2⟩

end xyt

section adj
open Adj AdjSpec AdjProps
variable {C : Type} [DecidableEq C]

theorem gpath_snoc {G : Graph C} {y : C} (hy : y ∈ G.pts) {x : C} {k : Nat} (hk : G.cost x y = some k) : ∀ {p : List C} {n : Nat}, GPath G p n → p.getLast? = some x → GPath G (p ++ [y]) (n + k)
  | _, _, .single hx, hl => by
    simp at hl; subst hl
    have := GPath.cons hk (.single hy)
    simpa using this
  | _, _, .cons (x := x') (y := y') (p := p) (k := k') (n := n) hk' hp, hl => by
    have := gpath_snoc hy hk hp (by simpa using hl)
    have := GPath.cons hk' this
    rw [Nat.add_assoc]
    simpa using this

/-- **C165.**  On a graph built by any sequence of calls on which the goal can be reached from every point that can be reached from the start, a new value iteration planner with enough time stops because the
values have converged (its path is then optimal: C162). -/
theorem vi_adj_converges {ops : List (Adj.Op C)} {a b : C} {e : Env C} {dist : C → C → Nat} (h : LegalAll ⟨[], fun _ _ => none⟩ (ops ++ [.start a, .goal b])) (he : Adj.empty.run (ops ++ [.start a, .goal b]) = .ok e)
    (hd : Estimates dist (after ops)) (hr : ∀ x p n, GPath (after ops) p n → Joins p a x → ∃ p' n', GPath (after ops) p' n' ∧ Joins p' x b) (bell : ℚ) (sol : List Int) :
    ∃ i j, e.startId = some i ∧ e.goalId = some j ∧ ∃ M, ∀ (clk : Nat → Bool) (fuel : Nat), M ≤ fuel →
      ∃ r, replan (vEnvOf (e.setAll j) (fun s => e.heur dist s j)) i j clk fuel (fresh (vEnvOf (e.setAll j) (fun s => e.heur dist s j))) bell sol = some r ∧ ((∀ k, clk k = true) → r.bell ≤ ERRDELTA) := by
  obtain ⟨r, i, j, hi, hj, hs, hg⟩ := setup h he
  refine ⟨i, j, hs, hg, ?_⟩
  have hok := adj_envOk r hd
  have hh := adj_heurOk r hd
  simp only [Sbpl.PlannerSpec.HeurOk, if_true] at hh
  have key : ∀ x n, Walk ((e.penv dist).succs j) i x n → ∃ y p, (after ops).pts[x]? = some y ∧ GPath (after ops) p n ∧ Joins p a y := by
    intro x n w
    induction w with
    | nil => exact ⟨a, [a], hi, .single (List.mem_of_getElem? hi), rfl, rfl⟩
    | @snoc x y n c _ hmem ih =>
      obtain ⟨z, p, h1, h2, h3⟩ := ih
      obtain ⟨-, x', y', hx', hy', hk⟩ := (mem_succs r).mp hmem
      rw [h1] at hx'; cases hx'
      refine ⟨y', p ++ [y'], hy', gpath_snoc (List.mem_of_getElem? hy') hk h2 h3.2, ?_, by simp⟩
      have := h3.1
      cases p with
      | nil => cases this
      | cons _ _ => simpa using this
  refine reachable_converges (VIGraphProps.adj_actions (e := e) (dist := dist) (gl := j)).1 (h := fun s => e.heur dist s j) (hh j).1 (fun s t n h => hok.posS j s t n h) ?_ (fun x n w => ?_) bell sol
  · refine (List.finite_toSet (List.range (after ops).pts.length)).subset ?_
    rintro x ⟨n, w⟩
    obtain ⟨y, p, h1, _⟩ := key x n w
    exact List.mem_range.mpr (List.getElem?_eq_some_iff.mp h1).1
  · obtain ⟨y, p, h1, h2, h3⟩ := key x n w
    obtain ⟨p', n', k1, k2⟩ := hr y p n h2 h3
    obtain ⟨n2, _, w2⟩ := walk_of_gpath (dist := dist) r hj k1 k2.1 k2.2 h1 (Walk.nil)
    exact ⟨n2, w2⟩

end adj
end VIConvProps
end Sbpl
