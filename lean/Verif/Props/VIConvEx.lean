import Verif.Props.VIConv
import Verif.Props.VIGraphsEx
/-! # C165: concrete problems -/

namespace Sbpl
namespace VIConvProps
open MDP VI VIProps VIAnyProps GraphSpec PlannerSpec VIGraphProps

/-! ## A heuristic that is not consistent: 50 at a state one edge of cost 1 from the next, 7 at another -/

def badSuccs (s : Nat) : List (Nat × Nat) := if s = 0 then [(1, 1), (3, 2)] else if s = 1 then [(2, 4), (0, 1)] else if s = 3 then [(2, 2), (1, 1)] else []
def badHeur (s : Nat) : Nat := if s = 0 then 50 else if s = 3 then 7 else 0
def badV : VEnv := vEnvOf (edgeActs badSuccs) badHeur

/-- the hypotheses of `graph_converges` hold -/
example : ∃ N, ∀ (clk : Nat → Bool) (fuel : Nat), N ≤ fuel → ∃ r, replan badV 0 2 clk fuel (fresh badV) INFINITECOST [] = some r ∧ ((∀ k, clk k = true) → r.bell ≤ ERRDELTA) := by
  have hs : ∀ s t c, (t, c) ∈ badSuccs s → (s = 0 ∧ ((t = 1 ∧ c = 1) ∨ (t = 3 ∧ c = 2))) ∨ (s = 1 ∧ ((t = 2 ∧ c = 4) ∨ (t = 0 ∧ c = 1))) ∨ (s = 3 ∧ ((t = 2 ∧ c = 2) ∨ (t = 1 ∧ c = 1))) := by
    intro s t c hm
    unfold badSuccs at hm
    split_ifs at hm <;> simp_all
  have w3 : Walk badSuccs 3 2 2 := Walk.snoc (n := 0) (c := 2) .nil (show (2, 2) ∈ badSuccs 3 by decide)
  refine graph_converges (st := 0) (gl := 2) (edgeActs_ok badSuccs) (by decide) (fun s t c hm => ?_) (S := [0, 1, 2, 3]) (by decide) (fun s _ t c hm => ?_) (by decide) (fun s h => ?_) _ _
  · have := hs s t c hm; omega
  · have := hs s t c hm; simp; omega
  · simp at h
    rcases h with rfl | rfl | rfl | rfl
    · exact ⟨4, Walk.snoc (n := 2) (Walk.snoc (n := 0) .nil (show (3, 2) ∈ badSuccs 0 by decide)) (show (2, 2) ∈ badSuccs 3 by decide)⟩
    · exact ⟨4, Walk.snoc (n := 0) .nil (show (2, 4) ∈ badSuccs 1 by decide)⟩
    · exact ⟨0, .nil⟩
    · exact ⟨2, w3⟩

/-- the path found: the heuristic has been corrected downwards (50 to 4) and upwards; but state 3, overestimated by 5, is avoided -/
example : (replan badV 0 2 (fun _ => true) 30 (fresh badV) INFINITECOST []).map (fun r => (r.policy.map (fun s => s.id), r.st.v 0, r.st.v 1, r.st.v 3)) = some ([0, 1, 2], 5, 4, 7) := by decide +kernel

/-! ## A map -/
section
open Nav2DProps GridSpec

/-- on the map of 3 × 2 cells with one obstacle the planner returns -/
example : ∃ fuel r, replan miniV 0 2 (fun _ => true) fuel (fresh miniV) INFINITECOST [] = some r := by
  refine (vi_nav2d_stops_iff (p := (0, 0)) (q := (2, 0)) mini_num mini_dirs rfl rfl (by decide) (edgeActs_ok _) err_lt_inf []).mpr ?_
  obtain ⟨r, h1, h2, h3⟩ := rep_some (by decide +kernel : rep (replan miniV 0 2 (fun _ => true) 30 (fresh miniV) INFINITECOST []) = some ([0, 3, 4, 5, 2], true))
  obtain ⟨l, n, -, -, -, q4, q5⟩ := vi_nav2d (p := (0, 0)) (q := (2, 0)) mini_num mini_dirs rfl rfl (edgeActs_ok _) err_lt_inf h1 h3
  exact ⟨n, q4⟩

end

/-! ## A lattice -/
section
open XSpec XEnv XCfg XHeurProps XYTProps XYTARAProps

/-- poses that can be reached, with the number of primitives to the goal (99: not reached) -/
def rank (i : Nat) : Nat := ([12, 99, 0, 7, 6, 5, 11, 99, 3, 10, 9, 4, 14, 99, 2, 9, 8, 3, 13, 99, 1, 8, 7, 2][i]?).getD 99

def rankOk (st : XEnv) : Bool :=
  (List.range 24).all (fun i => rank i == 99 || (((exEnv st).succs 99 i).all (fun e => rank e.1 != 99) && (i == 2 || ((exEnv st).succs 99 i).any (fun e => decide (rank e.1 < rank i)))))

/-- the goal can be reached from every pose that can be reached from the start -/
theorem hSetup_reach {stx : XEnv} (hx : XSpec.Hist hSetup [] stx) (h0 : tryX hSetup [] = some stx) :
    ∀ r n, LWalk hSetup (costs hSetup []) (0, 0, 0) r n → ∃ n', LWalk hSetup (costs hSetup []) r (2, 0, 0) n' := by
  obtain ⟨N, -, -, -, -⟩ := exEnv_ok hx
  obtain ⟨ix, eg, -, -⟩ := hist_inv hx
  have hk : (tryX hSetup []).map rankOk = some true := by decide +kernel
  rw [h0] at hk
  simp only [Option.map_some, Option.some.injEq, rankOk, List.all_eq_true, List.mem_range] at hk
  have hlt : ∀ i, rank i ≠ 99 → i < 24 := fun i hi => by
    by_contra hc
    exact hi (by unfold rank; rw [List.getElem?_eq_none (by simpa using Nat.le_of_not_lt hc)]; rfl)
  have hden : ∀ i, rank i ≠ 99 → i ≠ 99 := fun i hi => by have := hlt i hi; omega
  have hstep : ∀ i, rank i ≠ 99 → (∀ e ∈ (exEnv stx).succs 99 i, rank e.1 ≠ 99) ∧ (i = 2 ∨ ∃ e ∈ (exEnv stx).succs 99 i, rank e.1 < rank i) := fun i hi => by
    have := hk i (hlt i hi)
    simp only [Bool.or_eq_true, Bool.and_eq_true, List.all_eq_true, List.any_eq_true, decide_eq_true_eq, beq_iff_eq, bne_iff_ne] at this
    exact this.resolve_left hi
  rw [← eg]
  -- reachable keys have a rank
  have h1 : ∀ r n, LWalk hSetup stx.cfg.grid (0, 0, 0) r n → ∃ i, keyDen 3 2 4 i = some r ∧ rank i ≠ 99 := by
    intro r n w
    induction w with
    | nil => exact ⟨0, by decide, by decide⟩
    | @snoc b t n c m _ he ih =>
      obtain ⟨i, k1, k2⟩ := ih
      obtain ⟨j, k3⟩ : ∃ j, keyDen 3 2 4 j = some t := ⟨_, N.left t (XYTARAProps.edge_inRange ix.stc hSetup_ok.ok he)⟩
      exact ⟨j, k3, (hstep i k2).1 (j, c) ((XYTARAProps.succs_edge ix.stc hSetup_ok.ok N).mpr ⟨hden i k2, b, t, m, k1, k3, he⟩)⟩
  have h2 : ∀ k i r, rank i ≤ k → rank i ≠ 99 → keyDen 3 2 4 i = some r → ∃ n', LWalk hSetup stx.cfg.grid r (2, 0, 0) n' := by
    have cons : ∀ {p r q : XKey} {m k : Nat} {mm : MPrim}, Edge hSetup stx.cfg.grid mm p r m → LWalk hSetup stx.cfg.grid r q k → LWalk hSetup stx.cfg.grid p q (m + k) := by
      intro p r q m k mm he w
      induction w with
      | nil => have := LWalk.snoc (s := hSetup) (grid := stx.cfg.grid) (p := p) mm .nil he; simpa using this
      | snoc m' _ e ih => have := ih.snoc m' e; rwa [Nat.add_assoc] at this
    intro k
    induction k with
    | zero =>
      intro i r hi hn hd
      rcases (hstep i hn).2 with rfl | ⟨e, _, h⟩
      · have : keyDen 3 2 4 2 = some (2, 0, 0) := by decide
        rw [this] at hd; cases hd
        exact ⟨0, .nil⟩
      · omega
    | succ k ih =>
      intro i r hi hn hd
      rcases (hstep i hn).2 with rfl | ⟨e, he, h⟩
      · have : keyDen 3 2 4 2 = some (2, 0, 0) := by decide
        rw [this] at hd; cases hd
        exact ⟨0, .nil⟩
      · obtain ⟨_, p', q', mm, hp', hq', ed⟩ := (XYTARAProps.succs_edge ix.stc hSetup_ok.ok N).mp (show (e.1, e.2) ∈ _ from he)
        rw [hd] at hp'; cases hp'
        obtain ⟨n', w⟩ := ih e.1 q' (by omega) ((hstep i hn).1 e he) hq'
        exact ⟨_, cons ed w⟩
  intro r n w
  obtain ⟨i, k1, k2⟩ := h1 r n w
  exact h2 _ i r (Nat.le_refl _) k2 k1

/-- the planner stops on this lattice -/
example : ∃ stx, XSpec.Hist hSetup [] stx ∧ ∃ M, ∀ (clk : Nat → Bool) (fuel : Nat), M ≤ fuel → ∃ r, replan (xv stx) 0 2 clk fuel (fresh (xv stx)) INFINITECOST [] = some r ∧ ((∀ k, clk k = true) → r.bell ≤ ERRDELTA) := by
  obtain ⟨stx, h0⟩ : ∃ stx, tryX hSetup [] = some stx := by
    have hk : (tryX hSetup []).map rankOk = some true := by decide +kernel
    cases h : tryX hSetup [] with
    | none => rw [h] at hk; cases hk
    | some st => exact ⟨st, rfl⟩
  have hx := tryX_hist hSetup_ok.ok (by simp) h0
  obtain ⟨N, hE, hc, hG, hS⟩ := exEnv_ok hx
  exact ⟨stx, hx, vi_xyt_converges (vel := 1) (m := 3) (p := (0, 0, 0)) (q := (2, 0, 0)) hx N (by decide) (by decide) (by norm_num) hc (by decide) hG (hSetup_reach hx h0) (edgeActs_ok _) _ _⟩

end
end VIConvProps
end Sbpl
