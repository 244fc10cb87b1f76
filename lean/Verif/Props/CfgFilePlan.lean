import Verif.Props.CfgFile
import Verif.Props.Nav2DARA
/-!
# From a map file to a plan
-/

namespace Sbpl.CfgFileProps
open Sbpl Scan FileSpec GridSpec Nav2DProps GraphSpec PlannerSpec

theorem passable_congr {W H : Int} {g g' : Int → Int → Nat} (h : ∀ x y, InMap W H x y → g x y = g' x y) {obs : Nat} {x y dx dy : Int} {m : Nat}
    (p : Passable W H g obs x y dx dy m) : Passable W H g' obs x y dx dy m := by
  obtain ⟨p1, ⟨cx, cy, p2, p3, p4⟩, p5⟩ := p
  refine ⟨?_, ⟨cx, cy, p2, p3, ?_⟩, p5⟩
  · intro a b ha hb
    obtain ⟨q1, q2⟩ := p1 a b ha hb
    exact ⟨q1, by rw [← h _ _ q1]; exact q2⟩
  · rw [← h _ _ (p1 cx cy p2 p3).1]; exact p4

theorem gridWalk_congr {W H : Int} {g g' : Int → Int → Nat} (h : ∀ x y, InMap W H x y → g x y = g' x y) {obs : Nat} {is16 : Bool} {p q : Int × Int} {n : Nat}
    (w : GridWalk W H g obs is16 p q n) : GridWalk W H g' obs is16 p q n := by
  induction w with
  | nil => exact .nil
  | snoc _ e ih =>
    obtain ⟨m, l, e1, e2, e3, e4⟩ := e
    exact .snoc ih ⟨m, l, e1, passable_congr h e2, e3, e4⟩

section
variable {l1 w h o l2 sx sy l3 ex ey l4 : Word} {W H : Nat} {a b c d : Int} {q : ℚ} {t : Text} {cell : Nat → Nat → Word} {val : Int → Int → Nat} {extra : List Word}
variable {env0 : PEnv} {fwd : Bool} {D ie fe de : Nat} {fs : Bool} {ops : List ARA.Op} {st st' : ARA} {res : ARA.Result} {s g : Nat} {bs : List Nat}
variable {num : Int × Int → Nat} {den : Nat → Option (Int × Int)}

/-- **C153** The environment is initialised from a map file and an ARA* planner is run on it, from the start to the goal of the file: a path it finds is a walk over the map that the file
describes (cells with the numbers in the file, at least the threshold = obstacle), from the start cell to the goal cell in the file, of at most the cost reported; and if eps is reported,
the cost is at most (1.001 * eps + 0.001) times that of any walk over that map. -/
theorem file_to_plan {is16 : Bool} (L : Layout (nav2dFile l1 w h o l2 sx sy l3 ex ey l4 (rows W H cell ++ extra)) t)
    (hlen : ∀ u ∈ [l1, w, h, o, l2, sx, sy, l3, ex, ey, l4], u.length < 1024)
    (hw : IsInt w W) (hh : IsInt h H) (hW : W ≤ 2147483647) (hH : H ≤ 2147483647) (ho : IsDec o q) (h0 : 0 ≤ q) (h1 : q < 256)
    (hsx : IsInt sx a) (hsy : IsInt sy b) (hs : InMap W H a b) (hex : IsInt ex c) (hey : IsInt ey d) (he : InMap W H c d)
    (hcell : ∀ x y : Nat, x < W → y < H → IsInt (cell x y) (val x y) ∧ val x y < 256) :
    ∃ (cfg : NavCfg) (rest : Text), readNav2D (dirsOf is16) t = .ok (cfg, rest) ∧
      ∀ {env0 : PEnv} {fwd : Bool} {D ie fe de : Nat} {fs : Bool} {ops : List ARA.Op} {st st' : ARA} {res : ARA.Result} {s g : Nat} {bs : List Nat}
        {num : Int × Int → Nat} {den : Nat → Option (Int × Int)}, EnvOk env0 → (∀ op ∈ ops, OpOk op) →
        (ARA.init env0 fwd D ie fe de fs).run ops = some st → lastStart ops = some s → lastGoal ops = some g → bs ≠ [] →
        st.replan bs = .ok (st', res) → Numbering cfg.W cfg.H num den → lastEnv env0 ops = navPEnv cfg num den →
        den s = some cfg.start → den g = some cfg.goal →
        (res.found = true → ∃ n, GridWalk W H val ⌊q⌋.toNat is16 (a, b) (c, d) n ∧ n ≤ res.cost) ∧
        (∀ {e n : Nat}, res.finalEps = some e → 0 < D → D ≤ e → (fwd = false → val a b < ⌊q⌋.toNat) → GridWalk W H val ⌊q⌋.toNat is16 (a, b) (c, d) n →
          res.found = true ∧ 1000 * D * res.cost ≤ (1001 * e + D) * n) := by
  obtain ⟨cfg, rest, r1, r2, r3, r4, r5, r6, r7, r8, r9⟩ := nav2d_file_read (dirs := dirsOf is16) (val := fun x y => (val x y : Int)) L hlen hw hh hW hH ho h0 h1 hsx hsy hs hex hey he
    (fun x y hx hy => ⟨(hcell x y hx hy).1, by have := (hcell x y hx hy).2; unfold IntRange; omega⟩)
  refine ⟨cfg, rest, r1, ?_⟩
  have hg : ∀ x y, InMap W H x y → cfg.grid x y = val x y := by
    rintro x y ⟨i1, i2, i3, i4⟩
    obtain ⟨x', rfl⟩ := Int.eq_ofNat_of_zero_le i1
    obtain ⟨y', rfl⟩ := Int.eq_ofNat_of_zero_le i3
    have := r9 x' y' (by omega) (by omega) (by omega) (by have := (hcell x' y' (by omega) (by omega)).2; omega)
    exact_mod_cast this
  have hobs : cfg.obs = ⌊q⌋.toNat := by omega
  intro env0 fwd D ie fe de fs ops st st' res s g bs num den henv hok hrun hst hgo hbs hrep N hmap hp hq
  rw [r5] at hp
  rw [r6] at hq
  refine ⟨?_, ?_⟩
  · intro hf
    obtain ⟨n, w1, w2⟩ := ara_nav2d_path henv hok hrun hst hgo hbs hrep hf N r7 hmap hp hq
    rw [r2, r3, hobs] at w1
    exact ⟨n, gridWalk_congr hg w1, w2⟩
  · intro e n hfe hD hDe hfree wk
    have wk' : GridWalk cfg.W cfg.H cfg.grid cfg.obs is16 (a, b) (c, d) n := by
      rw [r2, r3, hobs]
      exact gridWalk_congr (fun x y hxy => (hg x y hxy).symm) wk
    have := ara_nav2d_bound henv hok hrun hst hgo hbs hrep hfe hD hDe N r7 hmap hp hq (fun hb => by rw [hobs, hg a b hs]; exact hfree hb) wk'
    exact ⟨this.1, this.2.1⟩

end

/-- the configuration in a file (a 1 × 1 map if there is none) -/
def cfgOf (t : Text) : NavCfg :=
  match readNav2D 8 t with
  | .ok (c, _) => c
  | .error _ => ⟨1, 1, 1, fun _ _ => 0, 8, (0, 0), (0, 0)⟩

def miniText : String := "discretization(cells): 3 2
obsthresh: 1
start(cells): 0 0
end(cells): 2 0
environment:
0 1 0
0 0 0
"

/-- the hypotheses of C153 are met: planning on the map of a file -/
example : ∃ st st' res, (ARA.init (navPEnv (cfgOf miniText.toList) (rowNum 3) (rowDen 3 2)) true 1 1 1 1 true).run [.setGoal 2, .setStart 0] = some st ∧
    st.replan [9] = .ok (st', res) ∧ res.found = true ∧ res.finalEps = some 1 ∧ res.path = [0, 3, 4, 5, 2] ∧
    rowDen 3 2 0 = some (cfgOf miniText.toList).start ∧ rowDen 3 2 2 = some (cfgOf miniText.toList).goal := by
  obtain ⟨st, st', h1, h2⟩ := ARAProps.planRun_some (by decide +kernel :
    ARAProps.planRun (navPEnv (cfgOf miniText.toList) (rowNum 3) (rowDen 3 2)) true 1 1 1 1 true [.setGoal 2, .setStart 0] [9] =
      some ⟨true, [0, 3, 4, 5, 2], 4000, some 1, [[0, 3, 4, 5]]⟩)
  exact ⟨st, st', _, h1, h2, rfl, rfl, rfl, by decide +kernel, by decide +kernel⟩

end Sbpl.CfgFileProps
