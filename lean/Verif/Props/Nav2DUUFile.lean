import Verif.Props.Nav2DUU
/-!
# Files of `EnvironmentNAV2DUU` (C158) and concrete cases
-/

namespace Sbpl
namespace NavUUProps
open NavUU UUSpec
open Scan FileSpec CfgFileProps Scan

/-- cost and probability of being an obstacle that a number of the file stands for: a number strictly between 0 and 1 (up to 0.00001) is a probability, any other number is a cost -/
def Stands (obs : Int) (q : ℚ) (cost : Nat) (p : ℚ) : Prop :=
  (1 / 100000 ≤ q ∧ q ≤ 1 - 1 / 100000 → cost = 0 ∧ p = q) ∧
  (¬ (1 / 100000 ≤ q ∧ q ≤ 1 - 1 / 100000) → (cost : Int) = ⌊q⌋ ∧ (obs ≤ ⌊q⌋ → p = 1) ∧ (⌊q⌋ < obs → p = 0))

theorem uuCell_stands {obs : Nat} {q : ℚ} (h0 : 0 ≤ q) (h1 : q < 256) (t : Text) : ∃ r, uuCell obs q t = .ok (r, t) ∧ Stands obs q r.1 r.2 := by
  by_cases c : q > 1 - EPS ∨ q < EPS
  · have e : uuCell obs q = (do let v ← toInt q; pure (toUchar v, if toUchar v ≥ obs then 1 else 0)) := if_pos c
    obtain ⟨f1, f2, f3⟩ := toInt_floor h0 h1 t
    refine ⟨_, by rw [e, bind_ok f1]; rfl, ?_⟩
    have u := toUchar_id f2 f3
    constructor
    · intro d
      exfalso
      unfold EPS at c
      rcases c with c | c <;> linarith
    · intro _
      refine ⟨u, fun d => ?_, fun d => ?_⟩
      · simp only; rw [if_pos (by omega)]
      · simp only; rw [if_neg (by omega)]
  · have e : uuCell obs q = pure (0, q) := if_neg c
    refine ⟨_, by rw [e]; rfl, fun _ => ⟨rfl, rfl⟩, fun d => ?_⟩
    exfalso
    apply d
    unfold EPS at c
    constructor
    · by_contra k; exact c (Or.inr (by linarith))
    · by_contra k; exact c (Or.inl (by linarith))

theorem readUUCells_layout {obs : Nat} {cell : Nat → Nat → Word} {val : Nat → Nat → ℚ} {ws : List Word} :
    ∀ (l : List (Nat × Nat)) (g : Int → Int → Nat × ℚ) (t : Text), (∀ p ∈ l, IsDec (cell p.1 p.2) (val p.1 p.2) ∧ 0 ≤ val p.1 p.2 ∧ val p.1 p.2 < 256) →
      Layout (l.map (fun p => cell p.1 p.2) ++ ws) t →
      ∃ g' t', readUUCells obs l g t = .ok (g', t') ∧ Layout ws t' ∧ (∀ p ∈ l, Stands obs (val p.1 p.2) (g' p.1 p.2).1 (g' p.1 p.2).2) ∧
        ∀ (a b : Int), (∀ p ∈ l, ¬ (a = p.1 ∧ b = p.2)) → g' a b = g a b := by
  intro l
  induction l with
  | nil => intro g t _ L; exact ⟨g, t, rfl, L, by simp, by simp⟩
  | cons p l ih =>
    intro g t hc L
    obtain ⟨x, y⟩ := p
    obtain ⟨c1, c2, c3⟩ := hc (x, y) List.mem_cons_self
    obtain ⟨t1, e, L1⟩ := scanF_layout L c1
    obtain ⟨c, ec, sc⟩ := uuCell_stands (obs := obs) c2 c3 t1
    obtain ⟨g', t', r1, r2, r3, r4⟩ := ih (fun a b => if a = x ∧ b = y then c else g a b) t1
      (fun p hp => hc p (List.mem_cons_of_mem _ hp)) L1
    refine ⟨g', t', ?_, r2, ?_, ?_⟩
    · rw [readUUCells, bind_ok e]
      show (uuCell obs (val x y) >>= _) t1 = _
      rw [bind_ok ec]; exact r1
    · intro p hp
      by_cases hl : p ∈ l
      · exact r3 p hl
      · rcases List.mem_cons.mp hp with rfl | hp
        · have := r4 (x : Int) (y : Int) (by
            rintro ⟨a, b⟩ hq ⟨e1, e2⟩
            have f1 : x = a := by simpa using e1
            have f2 : y = b := by simpa using e2
            rw [f1, f2] at hl; exact hl hq)
          rw [this]
          simp only [and_self, if_true]
          exact sc
        · exact absurd hp hl
    · intro a b hn
      rw [r4 a b (fun p hp => hn p (List.mem_cons_of_mem _ hp))]
      rw [if_neg (hn (x, y) List.mem_cons_self)]

/-- **C158**: a file that describes a square map is accepted, and the environment has the costs, probabilities, start and goal of the file; the unknown cells are numbered one to one -/
theorem file_square {w h o l2 sx sy l3 ex ey l4 : Word} {N : Nat} {a b c d : Int} {q : ℚ} {t : Text} {cell : Nat → Nat → Word} {val : Nat → Nat → ℚ} {extra : List Word} (nd : Int)
    (L : Layout (nav2dFile "discretization(cells):".toList w h o l2 sx sy l3 ex ey l4 (rows N N cell ++ extra)) t)
    (hlen : ∀ u ∈ [w, h, o, l2, sx, sy, l3, ex, ey, l4], u.length < 1024)
    (hw : IsInt w N) (hh : IsInt h N) (hN : N ≤ 2147483647) (ho : IsDec o q) (h0 : 0 ≤ q) (h1 : q < 256)
    (hsx : IsInt sx a) (hsy : IsInt sy b) (hs : UUSpec.InMap N N a b) (hex : IsInt ex c) (hey : IsInt ey d) (he : UUSpec.InMap N N c d)
    (hcell : ∀ x y, x < N → y < N → IsDec (cell x y) (val x y) ∧ 0 ≤ val x y ∧ val x y < 256) :
    ∃ st, initFile t nd = .ok (.ok st) ∧ st.W = N ∧ st.H = N ∧ (st.obs : Int) = ⌊q⌋ ∧ st.startId = enc a b ∧ st.goalId = enc c d ∧ st.nd = nd ∧
      (∀ x y : Nat, x < N → y < N → Stands ⌊q⌋ (val x y) (st.grid x y) (st.unc x y)) ∧ Numbered N N st.unc st.sizeofH st.hid := by
  have hs' := hs
  have he' := he
  obtain ⟨i1, i2, i3, i4⟩ := hs'
  obtain ⟨j1, j2, j3, j4⟩ := he'
  obtain ⟨t1, e1, L⟩ := label_layout L (by decide)
  obtain ⟨t2, e2, L⟩ := needInt_layout L (hlen _ (by simp)) hw (by unfold IntRange; omega)
  obtain ⟨t3, e3, L⟩ := needInt_layout L (hlen _ (by simp)) hh (by unfold IntRange; omega)
  obtain ⟨t4, e4, L⟩ := label_layout L (by decide)
  obtain ⟨t5, e5, L⟩ := needDec_layout L (hlen _ (by simp)) ho
  obtain ⟨f1, g0, g1⟩ := toInt_floor h0 h1 t5
  obtain ⟨t6, e6, L⟩ := need_layout L (hlen _ (by simp))
  obtain ⟨t7, e7, L⟩ := needInt_layout L (hlen _ (by simp)) hsx (by unfold IntRange; omega)
  obtain ⟨t8, e8, L⟩ := needInt_layout L (hlen _ (by simp)) hsy (by unfold IntRange; omega)
  obtain ⟨t9, e9, L⟩ := need_layout L (hlen _ (by simp))
  obtain ⟨t10, e10, L⟩ := needInt_layout L (hlen _ (by simp)) hex (by unfold IntRange; omega)
  obtain ⟨t11, e11, L⟩ := needInt_layout L (hlen _ (by simp)) hey (by unfold IntRange; omega)
  obtain ⟨t12, e12, L⟩ := need_layout L (hlen _ (by simp))
  replace L : Layout (rows N N cell ++ extra) t12 := L
  rw [rows_eq] at L
  obtain ⟨g, t13, r1, r2, r3, r4⟩ := readUUCells_layout (obs := toUchar ⌊q⌋) (cell := cell) (val := val) (coords N N) (fun _ _ => (0, 0)) t12
    (fun p hp => hcell p.1 p.2 (mem_coords.mp hp).1 (mem_coords.mp hp).2) L
  have rd : readUU t = .ok (((N : Int), (N : Int), toUchar ⌊q⌋, (a, b), (c, d), g), t13) := by
    unfold readUU
    rw [bind_ok e1, bind_ok e2, bind_ok e3, bind_ok e4, bind_ok e5, bind_ok f1, bind_ok e6, bind_ok e7, bind_ok e8, bind_ok (inside_ok hs t8),
      bind_ok e9, bind_ok e10, bind_ok e11, bind_ok (inside_ok he t11), bind_ok e12]
    simp only [Int.toNat_natCast]
    rw [bind_ok r1]; rfl
  have u := toUchar_id g0 g1
  unfold initFile
  rw [rd]
  simp only [Int.toNat_natCast]
  rcases initGeneral_le (W := N) (H := N) (obs := toUchar ⌊q⌋) (grid := fun x y => (g x y).1) (unc := fun x y => (g x y).2) (nd := nd) (s := (a, b)) (g := (c, d)) (le_refl _) with
    ⟨⟨x, y, m, k, _⟩, _⟩ | ⟨_, hid, e, n, _⟩
  · exact absurd k (by have := m.2.2.2; omega)
  · refine ⟨_, by rw [e], rfl, rfl, u, rfl, rfl, rfl, ?_, n⟩
    intro x y hx hy
    have := r3 (x, y) (mem_coords.mpr ⟨hx, hy⟩)
    simp only at this ⊢
    rw [u] at this
    exact this

/-! ### Concrete cases -/

/-- a square map of at most 1024 rows gives a state as required by C156, provided numofdirs happens to be 8 -/
theorem ready_init (N obs : Nat) (map : Option ((Nat → Nat) × (Nat → ℚ))) (hN : N ≤ 1024) : ∃ st, init N N obs map 8 = .ok st ∧ Ready st := by
  obtain ⟨st, e, w1, w2, _, _, _, w3, n⟩ := init_square N obs map 8
  refine ⟨st, e, by omega, w3, ?_⟩
  intro x y m
  rw [w1, w2] at m
  by_cases u : Unknown (probOf' map N) x y
  · obtain ⟨k, q, _⟩ := n.range x y m u
    exact ⟨_, q⟩
  · exact ⟨_, n.known x y m u⟩

/-- a 3 by 3 map: the middle cell is unknown with probability 1/4, the cell (2, 0) with 1/2, all others are free -/
def exMap : (Nat → Nat) × (Nat → ℚ) := (fun _ => 0, fun i => if i = 4 then 1 / 4 else if i = 2 then 1 / 2 else 0)

/-- what GetPreds reports on a map, with numofdirs 8 -/
def view (W H : Nat) (map : (Nat → Nat) × (Nat → ℚ)) (x y : Int) (ups : List HVar) : Option UUPreds :=
  match init W H 10 (some map) 8 with
  | .ok st => match st.getPreds (enc x y) ups with
    | .ok r => some r
    | .error _ => none
  | .error _ => none

/-- the corner (2, 2) is known to be free, its two straight moves are listed as stochastic with probability 0 and hidden variable -1 (C157); the diagonal move from the middle is
listed as its side cells are free -/
example : view 3 3 exMap 2 2 [] = some ⟨[], [⟨4, 2049, [(2050, 1000, 1), (2049, 2000, 0)]⟩, ⟨6, 1026, [(2050, 1000, 1), (1026, 2000, 0)]⟩, ⟨7, 1025, [(2050, 1414, 1), (1025, 2828, 0)]⟩],
    [⟨-1, 1⟩, ⟨-1, 1⟩, ⟨-1, 1⟩]⟩ := by decide +kernel

/-- with the report of GetPreds itself (hidden variable -1 is an obstacle) the corner, which is free on the map, cannot be reached any more (`report_closes_free_cells`) -/
example : view 3 3 exMap 2 2 [⟨-1, 1⟩] = some ⟨[], [], []⟩ := by decide +kernel

/-- moves into the cell (1, 0): the middle cell, with hidden variable 0, is reported to be an obstacle and is still listed as the source of a move (C157); diagonal moves past it are not -/
example : view 3 3 exMap 1 0 [⟨0, 1⟩] = some ⟨[], [⟨1, 2048, [(1024, 1000, 1), (2048, 2000, 0)]⟩, ⟨3, 1025, [(1024, 1000, 1), (1025, 2000, 0)]⟩, ⟨6, 0, [(1024, 1000, 1), (0, 2000, 0)]⟩],
    [⟨-1, 1⟩, ⟨-1, 1⟩, ⟨-1, 1⟩]⟩ := by decide +kernel

/-- moves into the unknown cell (2, 0): the straight ones and the diagonal one from the unknown middle cell, whose side cells are free -/
example : (view 3 3 exMap 2 0 []).map (fun r => r.stoch.map InAct.src) = some [2049, 1025, 1024] := by decide +kernel

/-- the outcomes of the moves into the middle cell have its probabilities -/
example : (view 3 3 exMap 1 1 []).map (fun r => r.stoch.map fun a => a.outs.map fun o => o.2.2) =
    some (List.replicate 8 [3 / 4, 1 / 4]) := by decide +kernel

/-- a map that is wider than high is not even initialised -/
example : (match init 3 2 10 (some exMap) 8 with | .error e => some e | .ok _ => none) = some .oob := by decide +kernel

/-- what is read from a file: SizeofH, obstacle threshold, start, goal, cost and probability of some cells -/
structure FileView where
  sizeofH : Nat
  obs : Nat
  startId : Int
  goalId : Int
  cells : List (Nat × ℚ)
deriving DecidableEq

def fileView (s : String) (cells : List (Int × Int)) : Option FileView :=
  match initFile s.toList 8 with
  | .ok (.ok st) => some ⟨st.sizeofH, st.obs, st.startId, st.goalId, cells.map fun c => (st.grid c.1 c.2, st.unc c.1 c.2)⟩
  | _ => none

/-- a file for a 2 by 2 map, with a cost, a probability and an obstacle -/
example : fileView "discretization(cells): 2 2 obsthresh: 5 start(cells): 0 0 end(cells): 1 1 environment: 0 3 0.25 7" [(0, 0), (1, 0), (0, 1), (1, 1)] =
    some ⟨1, 5, 0, 1025, [(0, 0), (3, 0), (0, 1 / 4), (7, 1)]⟩ := by decide +kernel

/-- **C158, negative** the number 0.9, which the comment in ReadConfiguration calls the probability of being free, is stored as the probability of being an obstacle: a move into the cell
fails with probability 0.9 -/
theorem file_probability_of_obstacle :
    (match initFile "discretization(cells): 2 2 obsthresh: 5 start(cells): 0 0 end(cells): 1 1 environment: 0 0.9 0 0".toList 8 with
      | .ok (.ok st) => match st.getPreds (enc 1 0) [] with
        | .ok r => some (r.stoch.map fun a => a.outs)
        | _ => none
      | _ => none) = some [[(1024, 1000, 1 / 10), (1025, 2000, 9 / 10)], [(1024, 1414, 1 / 10), (1, 2828, 9 / 10)], [(1024, 1000, 1 / 10), (0, 2000, 9 / 10)]] := by decide +kernel

/-- **C158, negative** a file for a map that is wider than high makes InitializeEnv access memory outside the arrays -/
theorem file_wide_oob : (match initFile "discretization(cells): 2 1 obsthresh: 5 start(cells): 0 0 end(cells): 1 0 environment: 0 0".toList 8 with
      | .ok (.error e) => some e
      | _ => none) = some .oob := by decide +kernel

end NavUUProps
end Sbpl
