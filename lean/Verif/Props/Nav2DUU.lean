import Verif.Model.Nav2DUU
import Verif.Spec.NavUU
import Verif.Props.CfgFile
import Mathlib.Tactic.Linarith
import Mathlib.Tactic.NormNum
/-!
# `EnvironmentNAV2DUU` (C154 - C157)
-/

namespace Sbpl
namespace NavUUProps
open NavUU UUSpec

/-! ## State IDs -/

/-- the ID of a cell of a map of at most 1024 rows gives back the cell -/
theorem id_decodes {W H : Nat} (h : H ≤ 1024) {x y : Int} (m : InMap W H x y) : decX (enc x y) = x ∧ decY (enc x y) = y := by
  obtain ⟨h1, h2, h3, h4⟩ := m
  have e0 : 0 ≤ enc x y := by unfold enc; omega
  unfold decX decY
  rw [Int.tdiv_eq_ediv_of_nonneg e0, Int.tmod_eq_emod_of_nonneg e0]
  unfold enc
  omega

/-- **C154**: on a map of at most 1024 rows SetStart and SetGoal accept exactly the cells of the map, the ID they return is a function of the cell, and different cells have different IDs -/
theorem ids_distinct (st : NavUU) (h : st.H ≤ 1024) {x y x' y' : Int} {i i' : Int} (e : (st.setStart x y).2 = some i) (e' : (st.setGoal x' y').2 = some i') :
    i = i' ↔ x = x' ∧ y = y' := by
  unfold setStart at e
  unfold setGoal at e'
  by_cases w : st.within x y = true
  · by_cases w' : st.within x' y' = true
    · rw [if_pos w] at e
      rw [if_pos w'] at e'
      simp only [Option.some.injEq] at e e'
      unfold within at w w'
      simp only [decide_eq_true_eq] at w w'
      have a := id_decodes (W := st.W) h (x := x) (y := y) ⟨w.1, w.2.1, w.2.2.1, w.2.2.2⟩
      have b := id_decodes (W := st.W) h (x := x') (y := y') ⟨w'.1, w'.2.1, w'.2.2.1, w'.2.2.2⟩
      subst e; subst e'
      constructor
      · intro q
        rw [q] at a
        exact ⟨a.1.symm.trans b.1, a.2.symm.trans b.2⟩
      · rintro ⟨rfl, rfl⟩; rfl
    · rw [if_neg w'] at e'; cases e'
  · rw [if_neg w] at e; cases e

theorem set_accepts (st : NavUU) (x y : Int) :
    ((st.setStart x y).2.isSome ↔ InMap st.W st.H x y) ∧ ((st.setGoal x y).2.isSome ↔ InMap st.W st.H x y) ∧
    (¬ InMap st.W st.H x y → (st.setStart x y).1 = st ∧ (st.setGoal x y).1 = st) ∧
    (InMap st.W st.H x y → (st.setStart x y).2 = some (st.setStart x y).1.startId ∧ (st.setGoal x y).2 = some (st.setGoal x y).1.goalId) := by
  have q : st.within x y = true ↔ InMap st.W st.H x y := by unfold within InMap; simp only [decide_eq_true_eq, ge_iff_le]
  unfold setStart setGoal
  by_cases w : st.within x y = true
  · simp only [if_pos w]
    have := q.mp w
    simp [this]
  · simp only [if_neg w]
    have : ¬ InMap st.W st.H x y := fun c => w (q.mpr c)
    simp [this]

/-- **C154, negative**: with more than 1024 rows two cells share an ID, whatever the map -/
theorem ids_collide (st : NavUU) (h : 1024 < st.H) (w : 1 < st.W) :
    (st.setStart 0 1024).2 = (st.setStart 1 0).2 ∧ (st.setStart 1 0).2 = some 1024 := by
  have a : st.within 0 1024 = true := by unfold within; simp only [decide_eq_true_eq]; omega
  have b : st.within 1 0 = true := by unfold within; simp only [decide_eq_true_eq]; omega
  unfold setStart
  rw [if_pos a, if_pos b]
  exact ⟨rfl, rfl⟩

/-! ## Initialisation -/

theorem uncertain_iff (unc : Int → Int → ℚ) (x y : Int) : uncertain unc x y = true ↔ Unknown unc x y := by
  unfold uncertain Unknown EPS
  simp only [decide_eq_true_eq, ge_iff_le]

theorem mem_hidCells {W x y : Nat} : (x, y) ∈ hidCells W ↔ x < W ∧ y < W := by
  unfold hidCells
  simp only [List.mem_flatMap, List.mem_map, List.mem_range, Prod.mk.injEq]
  constructor
  · rintro ⟨a, ha, b, hb, rfl, rfl⟩; exact ⟨ha, hb⟩
  · rintro ⟨hx, hy⟩; exact ⟨x, hx, y, hy, rfl, rfl⟩

theorem nodup_hidCells (W : Nat) : (hidCells W).Nodup := by
  unfold hidCells
  rw [List.nodup_flatMap]
  refine ⟨fun x _ => List.Nodup.map (fun a b q => (Prod.mk.inj q).2) List.nodup_range, ?_⟩
  refine List.Pairwise.imp_of_mem ?_ (List.nodup_range (n := W))
  intro a b _ _ hne
  simp only [Function.onFun, List.disjoint_left, List.mem_map]
  rintro p ⟨u, _, rfl⟩ ⟨v, _, q⟩
  exact hne (Prod.mk.inj q).1.symm

theorem nodup_coords (W H : Nat) : (Scan.coords W H).Nodup := by
  unfold Scan.coords
  rw [List.nodup_flatMap]
  refine ⟨fun x _ => List.Nodup.map (fun a b q => (Prod.mk.inj q).1) List.nodup_range, ?_⟩
  refine List.Pairwise.imp_of_mem ?_ (List.nodup_range (n := H))
  intro a b _ _ hne
  simp only [Function.onFun, List.disjoint_left, List.mem_map]
  rintro p ⟨u, _, rfl⟩ ⟨v, _, q⟩
  exact hne (Prod.mk.inj q).2.symm

/-- what the numbering loop does on cells that are inside the arrays -/
theorem hidLoop_ok {H : Nat} {unc : Int → Int → ℚ} : ∀ (l : List (Nat × Nat)) (n : Nat) (h : Int → Int → Option Int), l.Nodup → (∀ p ∈ l, p.2 < H) →
    ∃ h', hidLoop H unc l n h = .ok (n + (l.filter fun p => uncertain unc p.1 p.2).length, h') ∧
      (∀ a b : Int, (∀ p ∈ l, ¬ ((p.1 : Int) = a ∧ (p.2 : Int) = b)) → h' a b = h a b) ∧
      (∀ p ∈ l, ¬ uncertain unc p.1 p.2 = true → h' p.1 p.2 = some (-1)) ∧
      (∀ p ∈ l, uncertain unc p.1 p.2 = true → ∃ k : Nat, h' p.1 p.2 = some (k : Int) ∧ n ≤ k ∧ k < n + (l.filter fun p => uncertain unc p.1 p.2).length) ∧
      (∀ p ∈ l, ∀ q ∈ l, uncertain unc p.1 p.2 = true → h' p.1 p.2 = h' q.1 q.2 → p = q) ∧
      (∀ k : Nat, n ≤ k → k < n + (l.filter fun p => uncertain unc p.1 p.2).length → ∃ p ∈ l, uncertain unc p.1 p.2 = true ∧ h' p.1 p.2 = some (k : Int))
  | [], n, h, _, _ => ⟨h, rfl, fun _ _ _ => rfl, by simp, by simp, by simp, by intro k a b; simp at b; omega⟩
  | (x, y) :: l, n, h, nd, hl => by
    have hy : ¬ y ≥ H := by have := hl (x, y) (by simp); simp at this; omega
    obtain ⟨nx, nd'⟩ := List.nodup_cons.mp nd
    have hl' : ∀ p ∈ l, p.2 < H := fun p hp => hl p (by simp [hp])
    have fresh : ∀ p ∈ l, ¬ ((p.1 : Int) = (x : Int) ∧ (p.2 : Int) = (y : Int)) := by
      rintro ⟨a, b⟩ hp ⟨q1, q2⟩
      simp only [Int.natCast_inj] at q1 q2
      subst q1; subst q2; exact nx hp
    by_cases u : uncertain unc x y = true
    · obtain ⟨h', e, f1, f2, f3, f4, f5⟩ := hidLoop_ok l (n + 1) (fun a b => if a = x ∧ b = y then some (n : Int) else h a b) nd' hl'
      have fl : (((x, y) :: l).filter fun p => uncertain unc p.1 p.2).length = (l.filter fun p => uncertain unc p.1 p.2).length + 1 := by
        rw [List.filter_cons_of_pos (by exact u)]; rfl
      have hxy : h' x y = some (n : Int) := by rw [f1 _ _ fresh]; simp
      refine ⟨h', ?_, ?_, ?_, ?_, ?_, ?_⟩
      · rw [hidLoop, if_neg hy, if_pos u, e, fl]; congr 2; omega
      · intro a b hab
        rw [f1 a b (fun p hp => hab p (by simp [hp]))]
        have := hab (x, y) (by simp)
        simp only at this
        rw [if_neg (fun c => this ⟨c.1.symm, c.2.symm⟩)]
      · intro p hp
        rcases List.mem_cons.mp hp with rfl | hp
        · intro c; exact absurd u c
        · exact f2 p hp
      · intro p hp
        rcases List.mem_cons.mp hp with rfl | hp
        · intro _; exact ⟨n, hxy, le_refl _, by omega⟩
        · intro c
          obtain ⟨k, k1, k2, k3⟩ := f3 p hp c
          exact ⟨k, k1, by omega, by omega⟩
      · intro p hp q hq up ehq
        rcases List.mem_cons.mp hp with rfl | hp
        · rcases List.mem_cons.mp hq with rfl | hq
          · rfl
          · exfalso
            rw [show h' ((x, y) : Nat × Nat).1 ((x, y) : Nat × Nat).2 = some (n : Int) from hxy] at ehq
            by_cases uq : uncertain unc q.1 q.2 = true
            · obtain ⟨k, k1, k2, k3⟩ := f3 q hq uq
              rw [k1] at ehq; simp only [Option.some.injEq] at ehq; omega
            · rw [f2 q hq uq] at ehq; simp only [Option.some.injEq] at ehq; omega
        · rcases List.mem_cons.mp hq with rfl | hq
          · exfalso
            rw [show h' ((x, y) : Nat × Nat).1 ((x, y) : Nat × Nat).2 = some (n : Int) from hxy] at ehq
            obtain ⟨k, k1, k2, k3⟩ := f3 p hp up
            rw [k1] at ehq; simp only [Option.some.injEq] at ehq; omega
          · exact f4 p hp q hq up ehq
      · intro k k1 k2
        by_cases kn : k = n
        · subst kn; exact ⟨(x, y), by simp, u, hxy⟩
        · obtain ⟨p, hp, a, b⟩ := f5 k (by omega) (by omega)
          exact ⟨p, by simp [hp], a, b⟩
    · obtain ⟨h', e, f1, f2, f3, f4, f5⟩ := hidLoop_ok l n (fun a b => if a = x ∧ b = y then some (-1) else h a b) nd' hl'
      have fl : (((x, y) :: l).filter fun p => uncertain unc p.1 p.2).length = (l.filter fun p => uncertain unc p.1 p.2).length := by
        rw [List.filter_cons_of_neg (by exact u)]
      have hxy : h' x y = some (-1) := by rw [f1 _ _ fresh]; simp
      refine ⟨h', ?_, ?_, ?_, ?_, ?_, ?_⟩
      · rw [hidLoop, if_neg hy, if_neg u, e, fl]
      · intro a b hab
        rw [f1 a b (fun p hp => hab p (by simp [hp]))]
        have := hab (x, y) (by simp)
        simp only at this
        rw [if_neg (fun c => this ⟨c.1.symm, c.2.symm⟩)]
      · intro p hp
        rcases List.mem_cons.mp hp with rfl | hp
        · intro _; exact hxy
        · exact f2 p hp
      · intro p hp
        rcases List.mem_cons.mp hp with rfl | hp
        · intro c; exact absurd c u
        · intro c; rw [fl]; exact f3 p hp c
      · intro p hp q hq up ehq
        rcases List.mem_cons.mp hp with rfl | hp
        · exact absurd up u
        · rcases List.mem_cons.mp hq with rfl | hq
          · exfalso
            rw [show h' ((x, y) : Nat × Nat).1 ((x, y) : Nat × Nat).2 = some (-1) from hxy] at ehq
            obtain ⟨k, k1, k2, k3⟩ := f3 p hp up
            rw [k1] at ehq; simp only [Option.some.injEq] at ehq; omega
          · exact f4 p hp q hq up ehq
      · intro k k1 k2
        rw [fl] at k2
        obtain ⟨p, hp, a, b⟩ := f5 k k1 k2
        exact ⟨p, by simp [hp], a, b⟩

/-- the loop stops with an access outside the arrays at the first cell outside them -/
theorem hidLoop_oob {H : Nat} {unc : Int → Int → ℚ} : ∀ (l : List (Nat × Nat)) (n : Nat) (h : Int → Int → Option Int), (∃ p ∈ l, H ≤ p.2) → hidLoop H unc l n h = .error .oob
  | [], _, _, hx => by obtain ⟨_, hp, _⟩ := hx; cases hp
  | (x, y) :: l, n, h, hx => by
    rw [hidLoop]
    by_cases hy : y ≥ H
    · rw [if_pos hy]
    · rw [if_neg hy]
      have : ∃ p ∈ l, H ≤ p.2 := by
        obtain ⟨p, hp, q⟩ := hx
        rcases List.mem_cons.mp hp with rfl | hp
        · exact absurd q hy
        · exact ⟨p, hp, q⟩
      split
      · exact hidLoop_oob l _ _ this
      · exact hidLoop_oob l _ _ this

/-- the number of unknown cells of the map: those in the rows the numbering loop visits and the rest -/
theorem count_split {W H : Nat} (h : W ≤ H) (unc : Int → Int → ℚ) :
    countH W H unc = ((hidCells W).filter fun p => uncertain unc p.1 p.2).length + ((Scan.coords W H).filter fun p => uncertain unc p.1 p.2 && decide (W ≤ p.2)).length := by
  have e : countH W H unc = (((Scan.coords W H).filter fun p => uncertain unc p.1 p.2).filter fun p => decide (p.2 < W)).length +
      (((Scan.coords W H).filter fun p => uncertain unc p.1 p.2).filter fun p => ! decide (p.2 < W)).length := by
    unfold countH
    exact List.length_eq_length_filter_add _
  rw [e, List.filter_filter, List.filter_filter]
  congr 1
  · apply List.Perm.length_eq
    rw [List.perm_ext_iff_of_nodup ((nodup_coords W H).filter _) ((nodup_hidCells W).filter _)]
    rintro ⟨a, b⟩
    simp only [List.mem_filter, CfgFileProps.mem_coords, mem_hidCells, Bool.and_eq_true, decide_eq_true_eq]
    constructor
    · rintro ⟨⟨p, q⟩, r, s⟩; exact ⟨⟨p, r⟩, s⟩
    · rintro ⟨⟨p, r⟩, s⟩; exact ⟨⟨p, by omega⟩, r, s⟩
  · congr 1
    apply List.filter_congr
    rintro ⟨a, b⟩ _
    by_cases q : W ≤ b
    · have : ¬ b < W := by omega
      simp [q, this]
    · have : b < W := by omega
      simp [q, this]

/-- the hidden variables of the rows below the width of the map are numbered as promised -/
structure Numbered (W rows : Nat) (unc : Int → Int → ℚ) (n : Nat) (hid : Int → Int → Option Int) : Prop where
  known : ∀ x y, InMap W rows x y → ¬ Unknown unc x y → hid x y = some (-1)
  range : ∀ x y, InMap W rows x y → Unknown unc x y → ∃ k : Nat, hid x y = some (k : Int) ∧ k < n
  inj : ∀ x y x' y', InMap W rows x y → InMap W rows x' y' → Unknown unc x y → hid x y = hid x' y' → x = x' ∧ y = y'
  onto : ∀ k : Nat, k < n → ∃ x y, InMap W rows x y ∧ Unknown unc x y ∧ hid x y = some (k : Int)

theorem initGeneral_le {W H obs : Nat} {grid : Int → Int → Nat} {unc : Int → Int → ℚ} {nd : Int} {s g : Int × Int} (h : W ≤ H) :
    (∃ x y, InMap W H x y ∧ (W : Int) ≤ y ∧ Unknown unc x y) ∧ initGeneral W H obs grid unc (countH W H unc) nd s g = .error .thrown ∨
    (¬ ∃ x y, InMap W H x y ∧ (W : Int) ≤ y ∧ Unknown unc x y) ∧ ∃ hid, initGeneral W H obs grid unc (countH W H unc) nd s g =
      .ok ⟨W, H, obs, grid, unc, hid, nd, countH W H unc, enc s.1 s.2, enc g.1 g.2⟩ ∧ Numbered W W unc (countH W H unc) hid ∧
      ∀ x y, ¬ InMap W W x y → hid x y = none := by
  obtain ⟨h', e, f1, f2, f3, f4, f5⟩ := hidLoop_ok (H := H) (unc := unc) (hidCells W) 0 (fun _ _ => none) (nodup_hidCells W)
    (by rintro ⟨a, b⟩ hp; have := mem_hidCells.mp hp; simp only; omega)
  rw [Nat.zero_add] at e
  simp only [Nat.zero_add] at f3 f5
  have cs := count_split h unc
  have key : ((Scan.coords W H).filter fun p => uncertain unc p.1 p.2 && decide (W ≤ p.2)).length = 0 ↔ ¬ ∃ x y, InMap W H x y ∧ (W : Int) ≤ y ∧ Unknown unc x y := by
    rw [List.length_eq_zero_iff, List.filter_eq_nil_iff]
    constructor
    · rintro q ⟨x, y, ⟨a1, a2, a3, a4⟩, b, c⟩
      refine q (x.toNat, y.toNat) (CfgFileProps.mem_coords.mpr ⟨by omega, by omega⟩) ?_
      have ex : ((x.toNat : Nat) : Int) = x := by omega
      have ey : ((y.toNat : Nat) : Int) = y := by omega
      simp only [ex, ey, Bool.and_eq_true, decide_eq_true_eq]
      exact ⟨(uncertain_iff unc x y).mpr c, by omega⟩
    · rintro q ⟨a, b⟩ hp c
      have := CfgFileProps.mem_coords.mp hp
      simp only [Bool.and_eq_true, decide_eq_true_eq] at c
      exact q ⟨a, b, ⟨by omega, by omega, by omega, by omega⟩, by omega, (uncertain_iff unc a b).mp c.1⟩
  unfold initGeneral
  rw [e]
  by_cases q : ∃ x y, InMap W H x y ∧ (W : Int) ≤ y ∧ Unknown unc x y
  · left
    refine ⟨q, ?_⟩
    have : ¬ ((Scan.coords W H).filter fun p => uncertain unc p.1 p.2 && decide (W ≤ p.2)).length = 0 := fun c => key.mp c q
    simp only
    rw [if_pos (by omega)]
  · right
    have z := key.mpr q
    refine ⟨q, h', ?_, ?_, ?_⟩
    · simp only
      rw [if_neg (by omega)]
    · have cell : ∀ x y, InMap W W x y → (x.toNat, y.toNat) ∈ hidCells W ∧ ((x.toNat : Nat) : Int) = x ∧ ((y.toNat : Nat) : Int) = y := by
        rintro x y ⟨a1, a2, a3, a4⟩
        exact ⟨mem_hidCells.mpr ⟨by omega, by omega⟩, by omega, by omega⟩
      have cn : ((hidCells W).filter fun p => uncertain unc p.1 p.2).length = countH W H unc := by omega
      rw [cn] at f3 f5
      refine ⟨?_, ?_, ?_, ?_⟩
      · intro x y m u
        obtain ⟨c1, c2, c3⟩ := cell x y m
        have := f2 _ c1
        simp only [c2, c3, uncertain_iff] at this
        exact this u
      · intro x y m u
        obtain ⟨c1, c2, c3⟩ := cell x y m
        have := f3 _ c1
        simp only [c2, c3, uncertain_iff] at this
        obtain ⟨k, k1, _, k3⟩ := this u
        exact ⟨k, k1, k3⟩
      · intro x y x' y' m m' u eq
        obtain ⟨c1, c2, c3⟩ := cell x y m
        obtain ⟨d1, d2, d3⟩ := cell x' y' m'
        have := f4 _ c1 _ d1
        simp only [c2, c3, d2, d3, uncertain_iff, Prod.mk.injEq] at this
        have := this u eq
        omega
      · intro k hk
        obtain ⟨⟨a, b⟩, hp, u, v⟩ := f5 k (by omega) hk
        have := mem_hidCells.mp hp
        exact ⟨a, b, ⟨by omega, by omega, by omega, by omega⟩, (uncertain_iff unc a b).mp u, v⟩
    · intro x y m
      refine f1 x y ?_
      rintro ⟨a, b⟩ hp ⟨q1, q2⟩
      have := mem_hidCells.mp hp
      simp only at q1 q2
      exact m ⟨by omega, by omega, by omega, by omega⟩

theorem initGeneral_gt {W H obs : Nat} {grid : Int → Int → Nat} {unc : Int → Int → ℚ} {nd : Int} {s g : Int × Int} {k : Nat} (h : H < W) :
    initGeneral W H obs grid unc k nd s g = .error .oob := by
  unfold initGeneral
  rw [hidLoop_oob (hidCells W) 0 _ ⟨(0, H), mem_hidCells.mpr ⟨by omega, by omega⟩, le_refl _⟩]

/-- cost and probability of a cell in the arrays passed to InitializeEnv -/
def costOf (map : Option ((Nat → Nat) × (Nat → ℚ))) (W : Nat) (x y : Int) : Nat := match map with
  | none => 0
  | some m => m.1 (x + y * W).toNat
def probOf' (map : Option ((Nat → Nat) × (Nat → ℚ))) (W : Nat) (x y : Int) : ℚ := match map with
  | none => 0
  | some m => m.2 (x + y * W).toNat

theorem init_eq (W H obs : Nat) (map : Option ((Nat → Nat) × (Nat → ℚ))) (nd : Int) :
    init W H obs map nd = initGeneral W H obs (costOf map W) (probOf' map W) (countH W H (probOf' map W)) nd (0, 0) (0, 0) := rfl

/-- **C155**: InitializeEnv on a square map succeeds, keeps costs and probabilities, and numbers the unknown cells one to one with 0 .. SizeofH()-1; the other cells get -1 -/
theorem init_square (N obs : Nat) (map : Option ((Nat → Nat) × (Nat → ℚ))) (nd : Int) :
    ∃ st, init N N obs map nd = .ok st ∧ st.W = N ∧ st.H = N ∧ st.obs = obs ∧ st.grid = costOf map N ∧ st.unc = probOf' map N ∧ st.nd = nd ∧
      Numbered N N (probOf' map N) st.sizeofH st.hid := by
  rw [init_eq]
  rcases initGeneral_le (W := N) (H := N) (obs := obs) (grid := costOf map N) (unc := probOf' map N) (nd := nd) (s := (0, 0)) (g := (0, 0)) (le_refl _) with ⟨⟨x, y, m, c, _⟩, _⟩ | ⟨_, hid, e, n, _⟩
  · exact absurd c (by have := m.2.2.2; omega)
  · exact ⟨_, e, rfl, rfl, rfl, rfl, rfl, rfl, n⟩

/-- **C155, negative**: on a map that is wider than high InitializeEnv always reads outside the arrays -/
theorem init_wide (W H obs : Nat) (map : Option ((Nat → Nat) × (Nat → ℚ))) (nd : Int) (h : H < W) : init W H obs map nd = .error .oob := by
  rw [init_eq]; exact initGeneral_gt h

/-- **C155, negative**: on a map that is higher than wide InitializeEnv throws exactly if a row from the width on has an unknown cell; otherwise it succeeds but leaves the hidden variables
of these rows unset -/
theorem init_high (W H obs : Nat) (map : Option ((Nat → Nat) × (Nat → ℚ))) (nd : Int) (h : W < H) :
    (init W H obs map nd = .error .thrown ↔ ∃ x y, InMap W H x y ∧ (W : Int) ≤ y ∧ Unknown (probOf' map W) x y) ∧
    ((¬ ∃ x y, InMap W H x y ∧ (W : Int) ≤ y ∧ Unknown (probOf' map W) x y) → ∃ st, init W H obs map nd = .ok st ∧ st.W = W ∧ st.H = H ∧ st.obs = obs ∧ st.grid = costOf map W ∧
      st.unc = probOf' map W ∧ st.nd = nd ∧ Numbered W W (probOf' map W) st.sizeofH st.hid ∧ ∀ x y, (W : Int) ≤ y → st.hid x y = none) := by
  rw [init_eq]
  rcases initGeneral_le (W := W) (H := H) (obs := obs) (grid := costOf map W) (unc := probOf' map W) (nd := nd) (s := (0, 0)) (g := (0, 0)) (by omega) with ⟨q, e⟩ | ⟨q, hid, e, n, z⟩
  · exact ⟨⟨fun _ => q, fun _ => e⟩, fun c => absurd q c⟩
  · refine ⟨⟨fun c => (by rw [e] at c; cases c), fun c => absurd c q⟩, fun _ => ⟨_, e, rfl, rfl, rfl, rfl, rfl, rfl, n, ?_⟩⟩
    intro x y hy
    exact z x y (fun c => by have := c.2.2.2; omega)

/-! ## GetPreds -/

/-- the reported values as pairs -/
def pairs (ups : List HVar) : List (Int × Nat) := ups.map fun v => (v.hID, v.prob)

/-- a cell beside a diagonal move is known to be free: by the map, or a report says so -/
def ClearAt (st : NavUU) (ups : List HVar) (x y : Int) : Prop :=
  st.unc x y < 1 / 100000 ∨ ∃ h, st.hid x y = some h ∧ (h, 0) ∈ pairs ups

/-- the state InitializeEnv reaches on a square map, with the eight directions -/
structure Ready (st : NavUU) : Prop where
  rows : st.H ≤ 1024
  dirs : st.nd = 8
  hid : ∀ x y, InMap st.W st.H x y → ∃ h, st.hid x y = some h

theorem prob_small (n : Nat) : (n : ℚ) < EPS ↔ n = 0 := by
  unfold EPS
  constructor
  · intro h
    by_contra c
    have : (1 : ℚ) ≤ n := by exact_mod_cast (by omega : 1 ≤ n)
    have : (1 : ℚ) / 100000 < 1 := by norm_num
    linarith
  · rintro rfl; norm_num

theorem probOf_eq (hd : Int) : ∀ (ups : List HVar) (p : ℚ), probOf hd ups p = current (pairs ups) hd p
  | [], p => rfl
  | v :: l, p => by
    rw [probOf, probOf_eq hd l]
    unfold current pairs
    simp only [List.map_cons, List.reverse_cons, List.find?_append]
    cases e : (List.map (fun v : HVar => (v.hID, v.prob)) l).reverse.find? (fun v => v.1 = hd) with
    | some w => simp
    | none =>
      simp only [Option.none_or]
      by_cases q : v.hID = hd
      · simp [q]
      · simp [q]

theorem current_cases (ups : List (Int × Nat)) (hd : Int) (p : ℚ) : current ups hd p = p ∧ (∀ v ∈ ups, v.1 ≠ hd) ∨ ∃ n : Nat, current ups hd p = n ∧ (hd, n) ∈ ups := by
  unfold current
  cases e : ups.reverse.find? (fun v => v.1 = hd) with
  | none =>
    left
    refine ⟨rfl, ?_⟩
    intro v hv c
    have := List.find?_eq_none.mp e v (by simp [hv])
    simp [c] at this
  | some w =>
    right
    have a := List.mem_of_find?_eq_some e
    have b := List.find?_some e
    simp only [decide_eq_true_eq] at b
    refine ⟨w.2, rfl, ?_⟩
    rw [← b]
    simpa using a

theorem cornerOk_spec {st : NavUU} {ups : List HVar} {x y : Int} (hh : ∃ h, st.hid x y = some h) :
    (st.cornerOk ups x y = .ok true ∧ ClearAt st ups x y) ∨ (st.cornerOk ups x y = .ok false ∧ ¬ ClearAt st ups x y) := by
  obtain ⟨h, hh⟩ := hh
  unfold cornerOk
  have free : ∀ v ∈ ups, v.prob = 0 → anyFree ups = true := by
    intro v hv c
    unfold anyFree
    rw [List.any_eq_true]
    exact ⟨v, hv, by simp only [decide_eq_true_eq]; exact (prob_small _).mpr c⟩
  by_cases q : st.unc x y ≥ EPS
  · rw [if_pos q]
    have nq : ¬ st.unc x y < 1 / 100000 := by unfold EPS at q; linarith
    have key : knownFree h ups = true ↔ (h, 0) ∈ pairs ups := by
      unfold knownFree pairs
      rw [List.any_eq_true, List.mem_map]
      constructor
      · rintro ⟨v, hv, c⟩
        simp only [decide_eq_true_eq] at c
        exact ⟨v, hv, by rw [c.1, (prob_small _).mp c.2]⟩
      · rintro ⟨v, hv, c⟩
        simp only [Prod.mk.injEq] at c
        exact ⟨v, hv, by simp only [decide_eq_true_eq]; exact ⟨c.1, (prob_small _).mpr c.2⟩⟩
    by_cases f : anyFree ups = true
    · simp only [f, Bool.not_true, Bool.false_eq_true, if_false, hh]
      by_cases k : knownFree h ups = true
      · left
        exact ⟨by rw [k], Or.inr ⟨h, hh, key.mp k⟩⟩
      · right
        refine ⟨by simp only [Bool.not_eq_true] at k; rw [k], ?_⟩
        rintro (c | ⟨h', c1, c2⟩)
        · exact nq c
        · rw [hh] at c1; cases c1; exact k (key.mpr c2)
    · right
      refine ⟨by rw [if_pos (by simp [f])], ?_⟩
      rintro (c | ⟨h', c1, c2⟩)
      · exact nq c
      · unfold pairs at c2
        obtain ⟨v, hv, c⟩ := List.mem_map.mp c2
        simp only [Prod.mk.injEq] at c
        exact f (free v hv c.2)
  · rw [if_neg q]
    left
    exact ⟨rfl, Or.inl (by unfold EPS at q; linarith)⟩

/-- a direction of the table -/
def DirOk (d : Int × Int × Nat) : Prop := |d.1| ≤ 1 ∧ |d.2.1| ≤ 1 ∧ (d.1 ≠ 0 ∨ d.2.1 ≠ 0) ∧ d.2.2 = if d.1 ≠ 0 ∧ d.2.1 ≠ 0 then 1414 else 1000

theorem within_iff (st : NavUU) (x y : Int) : st.within x y = true ↔ InMap st.W st.H x y := by
  unfold within InMap; simp only [decide_eq_true_eq, ge_iff_le]

/-- the pass of the loop for one direction: the neighbour is a source exactly if the move exists -/
theorem move_spec {st : NavUU} {ups : List HVar} {x y : Int} {d : Int × Int × Nat} (hid : ∀ x y, InMap st.W st.H x y → ∃ h, st.hid x y = some h)
    (hd : DirOk d) (m : InMap st.W st.H x y) (g : st.grid x y < st.obs) :
    (∃ c, st.move ups x y d = .ok (some ((x + d.1, y + d.2.1), c)) ∧ Move st.W st.H st.obs st.grid (ClearAt st ups) (x + d.1) (y + d.2.1) x y c) ∨
    (st.move ups x y d = .ok none ∧ ∀ c, ¬ Move st.W st.H st.obs st.grid (ClearAt st ups) (x + d.1) (y + d.2.1) x y c) := by
  obtain ⟨d1, d2, d3⟩ := d
  obtain ⟨h1, h2, h3, h4⟩ := hd
  simp only at h1 h2 h3 h4
  unfold NavUU.move
  simp only
  have nb : Neighbour (x + d1) (y + d2) x y := by
    refine ⟨?_, ?_, ?_⟩
    · rw [show x + d1 - x = d1 by ring]; exact h1
    · rw [show y + d2 - y = d2 by ring]; exact h2
    · rcases h3 with h3 | h3
      · left; omega
      · right; omega
  by_cases w : st.within (x + d1) (y + d2) = true
  · have mp := (within_iff st _ _).mp w
    by_cases gp : st.grid (x + d1) (y + d2) ≥ st.obs
    · right
      rw [if_pos (by simp [gp])]
      refine ⟨rfl, fun c hc => ?_⟩
      have := hc.2.2.2.1 (x + d1) (y + d2) (Or.inl rfl) (Or.inl rfl) (Or.inr (Or.inl ⟨rfl, rfl⟩))
      omega
    · rw [if_neg (by simp [w]; omega)]
      by_cases dg : x + d1 ≠ x ∧ y + d2 ≠ y
      · rw [if_pos dg]
        have l14 : d3 = 1414 := by rw [h4, if_pos ⟨by omega, by omega⟩]
        have m1 : InMap st.W st.H x (y + d2) := ⟨m.1, m.2.1, mp.2.2.1, mp.2.2.2⟩
        have m2 : InMap st.W st.H (x + d1) y := ⟨mp.1, mp.2.1, m.2.2.1, m.2.2.2⟩
        rcases cornerOk_spec (ups := ups) (hid _ _ m1) with ⟨e1, c1⟩ | ⟨e1, c1⟩
        · rw [e1]
          rcases cornerOk_spec (ups := ups) (hid _ _ m2) with ⟨e2, c2⟩ | ⟨e2, c2⟩
          · rw [e2]
            simp only
            by_cases cm : max (max (max (st.grid x y) (st.grid (x + d1) (y + d2))) (st.grid x (y + d2))) (st.grid (x + d1) y) ≥ st.obs
            · right
              rw [if_pos cm]
              refine ⟨rfl, fun c hc => ?_⟩
              have q1 := hc.2.2.2.1 x (y + d2) (Or.inr rfl) (Or.inl rfl) (Or.inl dg)
              have q2 := hc.2.2.2.1 (x + d1) y (Or.inl rfl) (Or.inr rfl) (Or.inl dg)
              omega
            · left
              rw [if_neg cm]
              refine ⟨_, rfl, nb, mp, m, ?_, fun _ => ⟨c1, c2⟩, ?_⟩
              · rintro a b (rfl | rfl) (rfl | rfl) _ <;> omega
              · rw [if_pos dg, l14]
                unfold len
                rw [if_pos dg]
                congr 2
                omega
          · rw [e2]
            right
            exact ⟨rfl, fun c hc => c2 (hc.2.2.2.2.1 dg).2⟩
        · rw [e1]
          right
          exact ⟨rfl, fun c hc => c1 (hc.2.2.2.2.1 dg).1⟩
      · rw [if_neg dg]
        have l10 : d3 = 1000 := by rw [h4, if_neg (by omega)]
        left
        rw [if_neg (by omega)]
        refine ⟨_, rfl, nb, mp, m, ?_, fun c => absurd c dg, ?_⟩
        · rintro a b (rfl | rfl) (rfl | rfl) c
          · omega
          · rcases c with c | c | c
            · exact absurd c dg
            · rw [c.2]; omega
            · rw [c.1]; exact g
          · rcases c with c | c | c
            · exact absurd c dg
            · rw [c.1]; omega
            · rw [c.2]; exact g
          · exact g
        · rw [if_neg dg, l10]
          unfold len
          rw [if_neg dg]
          congr 2
          omega
  · right
    rw [if_pos (by simp [w])]
    exact ⟨rfl, fun c hc => w ((within_iff st _ _).mpr hc.2.1)⟩

theorem predLoop_spec {st : NavUU} {ups : List HVar} {x y id hd : Int} {p : ℚ} (hid : ∀ x y, InMap st.W st.H x y → ∃ h, st.hid x y = some h)
    (m : InMap st.W st.H x y) (g : st.grid x y < st.obs) : ∀ (ds : List (Int × Int × Nat)) (aind : Nat), (∀ d ∈ ds, DirOk d) →
    ∃ r, predLoop st ups id x y false p hd ds.length aind ds = .ok r ∧ r.det = [] ∧ r.hvals = r.stoch.map (fun _ => ⟨hd, 1⟩) ∧
      (r.stoch.map InAct.src).Sublist (ds.map fun d => enc (x + d.1) (y + d.2.1)) ∧
      ∀ s o, (∃ a ∈ r.stoch, a.src = s ∧ a.outs = o) ↔ ∃ d ∈ ds, ∃ c, Move st.W st.H st.obs st.grid (ClearAt st ups) (x + d.1) (y + d.2.1) x y c ∧
        s = enc (x + d.1) (y + d.2.1) ∧ o = [(id, (c : Int), 1 - p), (s, 2 * (c : Int), p)]
  | [], aind, _ => ⟨⟨[], [], []⟩, rfl, rfl, rfl, by simp, by simp⟩
  | d :: ds, aind, hds => by
    obtain ⟨r, e, r1, r2, r3, r4⟩ := predLoop_spec hid m g ds (aind + 1) (fun q hq => hds q (by simp [hq]))
    rw [List.length_cons, predLoop, e]
    rcases move_spec (ups := ups) hid (hds d (by simp)) m g with ⟨c, mv, M⟩ | ⟨mv, M⟩
    · rw [mv]
      refine ⟨_, rfl, r1, ?_, ?_, ?_⟩
      · simp [r2]
      · simp only [List.map_cons]
        exact r3.cons_cons _
      · intro s o
        constructor
        · rintro ⟨a, ha, q1, q2⟩
          rcases List.mem_cons.mp ha with rfl | ha
          · exact ⟨d, by simp, c, M, q1.symm, by rw [← q2, ← q1]⟩
          · obtain ⟨d', hd', q⟩ := (r4 s o).mp ⟨a, ha, q1, q2⟩
            exact ⟨d', by simp [hd'], q⟩
        · rintro ⟨d', hd', c', M', q1, q2⟩
          rcases List.mem_cons.mp hd' with rfl | hd'
          · refine ⟨_, List.mem_cons_self, q1.symm, ?_⟩
            have : c' = c := by rw [M'.2.2.2.2.2, M.2.2.2.2.2]
            subst this
            rw [q2, q1]
          · obtain ⟨a, ha, q⟩ := (r4 s o).mpr ⟨d', hd', c', M', q1, q2⟩
            exact ⟨a, by simp [ha], q⟩
    · rw [mv]
      refine ⟨r, rfl, r1, r2, r3.trans (List.sublist_cons_self _ _), ?_⟩
      intro s o
      rw [r4]
      constructor
      · rintro ⟨d', hd', q⟩; exact ⟨d', by simp [hd'], q⟩
      · rintro ⟨d', hd', c', M', q⟩
        rcases List.mem_cons.mp hd' with rfl | hd'
        · exact absurd M' (M c')
        · exact ⟨d', hd', c', M', q⟩

theorem dirs_ok : ∀ d ∈ dirs, DirOk d := by
  intro d hd
  unfold dirs at hd
  simp only [List.mem_cons, List.not_mem_nil, or_false] at hd
  rcases hd with rfl | rfl | rfl | rfl | rfl | rfl | rfl | rfl <;> (unfold DirOk; decide)

theorem dirs_all {px py x y : Int} (h : Neighbour px py x y) : ∃ d ∈ dirs, px = x + d.1 ∧ py = y + d.2.1 := by
  obtain ⟨h1, h2, h3⟩ := h
  rw [abs_le] at h1 h2
  have a : px = x - 1 ∨ px = x ∨ px = x + 1 := by omega
  have b : py = y - 1 ∨ py = y ∨ py = y + 1 := by omega
  unfold dirs
  rcases a with a | a | a <;> rcases b with b | b | b
  · exact ⟨(-1, -1, 1414), by simp, by simp [a, sub_eq_add_neg], by simp [b, sub_eq_add_neg]⟩
  · exact ⟨(-1, 0, 1000), by simp, by simp [a, sub_eq_add_neg], by simp [b, sub_eq_add_neg]⟩
  · exact ⟨(-1, 1, 1414), by simp, by simp [a, sub_eq_add_neg], by simp [b, sub_eq_add_neg]⟩
  · exact ⟨(0, -1, 1000), by simp, by simp [a, sub_eq_add_neg], by simp [b, sub_eq_add_neg]⟩
  · omega
  · exact ⟨(0, 1, 1000), by simp, by simp [a, sub_eq_add_neg], by simp [b, sub_eq_add_neg]⟩
  · exact ⟨(1, -1, 1414), by simp, by simp [a, sub_eq_add_neg], by simp [b, sub_eq_add_neg]⟩
  · exact ⟨(1, 0, 1000), by simp, by simp [a, sub_eq_add_neg], by simp [b, sub_eq_add_neg]⟩
  · exact ⟨(1, 1, 1414), by simp, by simp [a, sub_eq_add_neg], by simp [b, sub_eq_add_neg]⟩

/-- the flag for a known destination is never set when the loop starts -/
theorem bDet_false (ups : List HVar) (hd : Int) (u : ℚ) (h : ¬ probOf hd ups u > 1 - EPS) : (if probOf hd ups u < EPS then false else decide (u < EPS)) = false := by
  rw [probOf_eq] at h ⊢
  by_cases q : current (pairs ups) hd u < EPS
  · rw [if_pos q]
  · rw [if_neg q]
    rcases current_cases (pairs ups) hd u with ⟨e, _⟩ | ⟨n, e, _⟩
    · rw [e] at q
      simp [q]
    · exfalso
      rw [e] at h q
      rw [prob_small] at q
      apply h
      have : (1 : ℚ) ≤ n := by exact_mod_cast (by omega : 1 ≤ n)
      unfold EPS
      have : (1 : ℚ) - 1 / 100000 < 1 := by norm_num
      linarith

/-- **C156**: GetPreds of a cell `(x, y)` that is not an obstacle of the map and not known to be one: exactly one action for each neighbour with a move to `(x, y)`; its outcomes are
`(x, y)` with the cost of the move, if the cell is free, and the neighbour with twice the cost, if it is an obstacle, with the current probabilities; beside each action stands the hidden
variable of the cell with the value for an obstacle -/
theorem preds_exact {st : NavUU} (R : Ready st) {x y h : Int} (m : InMap st.W st.H x y) (g : st.grid x y < st.obs) (hh : st.hid x y = some h) (ups : List HVar)
    (hp : current (pairs ups) h (st.unc x y) ≤ 1 - 1 / 100000) :
    ∃ r, st.getPreds (enc x y) ups = .ok r ∧ (r.stoch.map InAct.src).Nodup ∧ r.hvals = r.stoch.map (fun _ => ⟨h, 1⟩) ∧
      ∀ s o, (∃ a ∈ r.det ++ r.stoch, a.src = s ∧ a.outs = o) ↔ ∃ px py c, Move st.W st.H st.obs st.grid (ClearAt st ups) px py x y c ∧ s = enc px py ∧
        o = [(enc x y, (c : Int), 1 - current (pairs ups) h (st.unc x y)), (s, 2 * (c : Int), current (pairs ups) h (st.unc x y))] := by
  obtain ⟨dx, dy⟩ := id_decodes R.rows m
  have np : ¬ probOf h ups (st.unc x y) > 1 - EPS := by rw [probOf_eq]; unfold EPS; linarith
  obtain ⟨r, e, r1, r2, r3, r4⟩ := predLoop_spec (ups := ups) (id := enc x y) (hd := h) (p := probOf h ups (st.unc x y)) R.hid m g dirs 0 dirs_ok
  have ge : st.getPreds (enc x y) ups = .ok r := by
    unfold getPreds
    simp only [dx, dy]
    rw [if_neg (by rw [(within_iff st x y).mpr m]; simp; omega), hh]
    simp only
    rw [if_neg np, bDet_false ups h _ np, R.dirs]
    exact e
  refine ⟨r, ge, ?_, r2, ?_⟩
  · refine r3.nodup ?_
    unfold dirs
    simp only [List.map_cons, List.map_nil, List.nodup_cons, List.mem_cons, List.not_mem_nil, or_false, not_false_eq_true, List.nodup_nil, and_true, enc]
    omega
  · intro s o
    rw [r1, List.nil_append, r4, probOf_eq]
    constructor
    · rintro ⟨d, _, c, M, q⟩; exact ⟨_, _, c, M, q⟩
    · rintro ⟨px, py, c, M, q⟩
      obtain ⟨d, hd, rfl, rfl⟩ := dirs_all M.1
      exact ⟨d, hd, c, M, q⟩

/-- **C156**: no actions lead into an obstacle of the map, into a cell reported to be an obstacle, or outside the map -/
theorem preds_blocked {st : NavUU} (R : Ready st) (ups : List HVar) :
    (∀ x y h, InMap st.W st.H x y → st.hid x y = some h → (st.obs ≤ st.grid x y ∨ 1 - 1 / 100000 < current (pairs ups) h (st.unc x y)) → st.getPreds (enc x y) ups = .ok ⟨[], [], []⟩) ∧
    (∀ id, ¬ InMap st.W st.H (decX id) (decY id) → st.getPreds id ups = .ok ⟨[], [], []⟩) := by
  constructor
  · intro x y h m hh c
    obtain ⟨dx, dy⟩ := id_decodes R.rows m
    unfold getPreds
    simp only [dx, dy]
    by_cases g : st.grid x y ≥ st.obs
    · rw [if_pos (by simp [g])]
    · rw [if_neg (by rw [(within_iff st x y).mpr m]; simp; omega), hh]
      simp only
      rcases c with c | c
      · omega
      · rw [if_pos (by rw [probOf_eq]; unfold EPS; linarith)]
  · intro id m
    unfold getPreds
    simp only
    rw [if_pos]
    have : st.within (decX id) (decY id) = false := by
      rw [Bool.eq_false_iff]; exact fun c => m ((within_iff st _ _).mp c)
    simp [this]

/-- the probabilities of the outcomes of every action add up to one -/
theorem preds_probabilities {st : NavUU} (R : Ready st) {x y h : Int} (m : InMap st.W st.H x y) (hh : st.hid x y = some h) (ups : List HVar) {r : UUPreds}
    (e : st.getPreds (enc x y) ups = .ok r) : ∀ a ∈ r.det ++ r.stoch, (a.outs.map fun o => o.2.2).sum = 1 := by
  by_cases g : st.grid x y < st.obs
  · by_cases hp : current (pairs ups) h (st.unc x y) ≤ 1 - 1 / 100000
    · obtain ⟨r', e', _, _, q⟩ := preds_exact R m g hh ups hp
      rw [e] at e'
      cases e'
      intro a ha
      obtain ⟨px, py, c, _, _, o⟩ := (q a.src a.outs).mp ⟨a, ha, rfl, rfl⟩
      rw [o]
      simp
    · rw [(preds_blocked R ups).1 x y h m hh (Or.inr (by linarith))] at e
      cases e
      simp
  · rw [(preds_blocked R ups).1 x y h m hh (Or.inl (by omega))] at e
    cases e
    simp

/-! ### What goes wrong -/

/-- the loop adds no deterministic action when the flag is not set -/
theorem predLoop_det {st : NavUU} {ups : List HVar} {x y id hd : Int} {p : ℚ} : ∀ (left aind : Nat) (ds : List (Int × Int × Nat)) (r : UUPreds),
    predLoop st ups id x y false p hd left aind ds = .ok r → r.det = []
  | 0, _, _, r, e => by rw [predLoop] at e; cases e; rfl
  | _ + 1, _, [], r, e => by rw [predLoop] at e; cases e
  | left + 1, aind, d :: ds, r, e => by
    rw [predLoop] at e
    split at e
    · cases e
    · split at e
      · cases e
      · rename_i r' e'
        have := predLoop_det left (aind + 1) ds r' e'
        split at e
        · cases e; exact this
        · cases e; exact this

/-- **C157, negative**: GetPreds never reports a deterministic action, whatever the map, the state and the reports; moves into cells that are known to be free are reported as stochastic -/
theorem no_deterministic_actions (st : NavUU) (id : Int) (ups : List HVar) (r : UUPreds) (e : st.getPreds id ups = .ok r) : r.det = [] := by
  unfold getPreds at e
  simp only at e
  split at e
  · cases e; rfl
  · split at e
    · cases e
    · split at e
      · cases e; rfl
      · rename_i h np
        rw [bDet_false _ _ _ np] at e
        exact predLoop_det _ _ _ _ e

/-- **C157, negative**: the reports made by GetPreds for cells known to be free (hidden variable -1, obstacle) make every cell that is known to be free by the map unreachable -/
theorem report_closes_free_cells {st : NavUU} (R : Ready st) {ups : List HVar} (last : (pairs ups).reverse.find? (fun v => v.1 = -1) = some (-1, 1)) {x y : Int} (m : InMap st.W st.H x y)
    (hh : st.hid x y = some (-1)) : st.getPreds (enc x y) ups = .ok ⟨[], [], []⟩ := by
  refine (preds_blocked R ups).1 x y (-1) m hh (Or.inr ?_)
  unfold current
  rw [last]
  norm_num

/-- **C157, negative**: numofdirs is not set by the class: with a value of at most 0 in the memory there are no actions at all, with more than 8 the tables are overrun -/
theorem unset_directions {st : NavUU} {x y h : Int} (hH : st.H ≤ 1024) (hid : ∀ x y, InMap st.W st.H x y → ∃ h, st.hid x y = some h) (m : InMap st.W st.H x y) (g : st.grid x y < st.obs)
    (hh : st.hid x y = some h) (ups : List HVar) (hp : current (pairs ups) h (st.unc x y) ≤ 1 - 1 / 100000) :
    (st.nd ≤ 0 → st.getPreds (enc x y) ups = .ok ⟨[], [], []⟩) ∧ (8 < st.nd → st.getPreds (enc x y) ups = .error .oob) := by
  obtain ⟨dx, dy⟩ := id_decodes hH m
  have np : ¬ probOf h ups (st.unc x y) > 1 - EPS := by rw [probOf_eq]; unfold EPS; linarith
  have ge : st.getPreds (enc x y) ups = predLoop st ups (enc x y) x y false (probOf h ups (st.unc x y)) h st.nd.toNat 0 dirs := by
    unfold getPreds
    simp only [dx, dy]
    rw [if_neg (by rw [(within_iff st x y).mpr m]; simp; omega), hh]
    simp only
    rw [if_neg np, bDet_false ups h _ np]
  constructor
  · intro c
    rw [ge, show st.nd.toNat = 0 by omega, predLoop]
  · intro c
    rw [ge]
    have : ∀ (ds : List (Int × Int × Nat)) (left aind : Nat), ds.length < left → (∀ d ∈ ds, DirOk d) →
        predLoop st ups (enc x y) x y false (probOf h ups (st.unc x y)) h left aind ds = .error .oob := by
      intro ds
      induction ds with
      | nil =>
        intro left aind hl _
        obtain ⟨k, rfl⟩ : ∃ k, left = k + 1 := ⟨left - 1, by simp at hl; omega⟩
        rw [predLoop]
      | cons d ds ih =>
        intro left aind hl hd
        obtain ⟨k, rfl⟩ : ∃ k, left = k + 1 := ⟨left - 1, by simp at hl; omega⟩
        rw [predLoop, ih k (aind + 1) (by simp at hl; omega) (fun q hq => hd q (by simp [hq]))]
        rcases move_spec (ups := ups) hid (hd d (by simp)) m g with ⟨c, mv, _⟩ | ⟨mv, _⟩ <;> rw [mv]
    exact this dirs _ 0 (by simp [dirs]; omega) dirs_ok

/-- **C157, negative**: GetPreds of a free cell in a row from the width of a high map on uses a hidden variable that was never set -/
theorem preds_uninit (W H obs : Nat) (map : Option ((Nat → Nat) × (Nat → ℚ))) (nd : Int) (h : W < H) (hH : H ≤ 1024) {st : NavUU} (e : init W H obs map nd = .ok st) {x y : Int}
    (m : InMap W H x y) (hy : (W : Int) ≤ y) (g : costOf map W x y < obs) (ups : List HVar) : st.getPreds (enc x y) ups = .error .uninit := by
  obtain ⟨q1, q2⟩ := init_high W H obs map nd h
  have : ¬ ∃ x y, InMap W H x y ∧ (W : Int) ≤ y ∧ Unknown (probOf' map W) x y := fun c => by
    rw [q1.mpr c] at e; cases e
  obtain ⟨st', e', w1, w2, w3, w4, _, _, _, w5⟩ := q2 this
  rw [e] at e'
  cases e'
  obtain ⟨dx, dy⟩ := id_decodes hH m
  unfold getPreds
  simp only [dx, dy]
  have wi : st.within x y = true := (within_iff st x y).mpr (by rw [w1, w2]; exact m)
  rw [if_neg (by rw [wi, w3, w4]; simp; omega), w5 x y hy]

/-- **C157, negative**: a move out of a cell that the reports say is an obstacle is still offered -/
theorem blocked_source_listed {st : NavUU} (R : Ready st) {x y h px py : Int} {c : Nat} (g : st.grid x y < st.obs) (hh : st.hid x y = some h) (ups : List HVar)
    (hp : current (pairs ups) h (st.unc x y) ≤ 1 - 1 / 100000) (M : Move st.W st.H st.obs st.grid (ClearAt st ups) px py x y c) :
    ∃ r a, st.getPreds (enc x y) ups = .ok r ∧ a ∈ r.det ++ r.stoch ∧ a.src = enc px py := by
  obtain ⟨r, e, _, _, q⟩ := preds_exact R M.2.2.1 g hh ups hp
  obtain ⟨a, ha, q1, _⟩ := (q _ _).mpr ⟨px, py, c, M, rfl, rfl⟩
  exact ⟨r, a, e, ha, q1⟩

/-- UpdateCost changes exactly the cost of the cell; outside the map it writes outside the arrays -/
theorem updateCost_spec (st : NavUU) (x y : Int) (c : Nat) :
    (InMap st.W st.H x y → ∃ st', st.updateCost x y c = .ok st' ∧ (∀ a b, st'.grid a b = if a = x ∧ b = y then c else st.grid a b) ∧
      st'.unc = st.unc ∧ st'.hid = st.hid ∧ st'.W = st.W ∧ st'.H = st.H ∧ st'.obs = st.obs ∧ st'.nd = st.nd ∧ st'.startId = st.startId ∧ st'.goalId = st.goalId) ∧
    (¬ InMap st.W st.H x y → st.updateCost x y c = .error .oob) := by
  unfold updateCost
  constructor
  · intro m
    rw [if_pos ((within_iff st x y).mpr m)]
    exact ⟨_, rfl, fun _ _ => rfl, rfl, rfl, rfl, rfl, rfl, rfl, rfl, rfl⟩
  · intro m
    rw [if_neg (fun q => m ((within_iff st x y).mp q))]

/-- **C157, negative**: an obstacle of the map file stays closed when UpdateCost makes it free: the probability 1 stored with it is not changed -/
theorem cleared_obstacle_stays_closed {st st' : NavUU} (R : Ready st) {x y : Int} {c : Nat} (m : InMap st.W st.H x y) (u : st.unc x y = 1) (e : st.updateCost x y c = .ok st')
    (ups : List HVar) (no : ∀ v ∈ ups, st.hid x y ≠ some v.hID) : st'.getPreds (enc x y) ups = .ok ⟨[], [], []⟩ := by
  obtain ⟨st2, e2, _, w1, w2, w3, w4, w5, w6, _⟩ := (updateCost_spec st x y c).1 m
  rw [e] at e2; cases e2
  have R' : Ready st' := ⟨by rw [w4]; exact R.rows, by rw [w6]; exact R.dirs, by rw [w2, w3, w4]; exact R.hid⟩
  obtain ⟨h, hh⟩ := R.hid x y m
  refine (preds_blocked R' ups).1 x y h (by rw [w3, w4]; exact m) (by rw [w2]; exact hh) (Or.inr ?_)
  rcases current_cases (pairs ups) h (st'.unc x y) with ⟨q, _⟩ | ⟨n, _, q⟩
  · rw [q, w1, u]; norm_num
  · exfalso
    unfold pairs at q
    obtain ⟨v, hv, q⟩ := List.mem_map.mp q
    simp only [Prod.mk.injEq] at q
    exact no v hv (by rw [hh, q.1])

end NavUUProps
end Sbpl
