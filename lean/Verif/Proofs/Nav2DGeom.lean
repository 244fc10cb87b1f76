import Verif.Proofs.Nav2D
/-! # The action table of `EnvironmentNAV2D` is the geometry of straight moves -/

namespace Sbpl
open GridSpec StateTable

theorem touched_bound {dx cx p q : Int} (hp : 0 ≤ p) (hpq : p ≤ q) (hq : 0 < q) (h1 : -2 ≤ dx) (h2 : dx ≤ 2)
    (l : -q ≤ 2 * (p * dx - q * cx)) (u : 2 * (p * dx - q * cx) ≤ q) : -2 ≤ cx ∧ cx ≤ 2 := by
  constructor
  · by_contra hc
    have : q * cx ≤ q * (-3) := Int.mul_le_mul_of_nonneg_left (by omega) (by omega)
    have : p * (-2) ≤ p * dx := Int.mul_le_mul_of_nonneg_left h1 hp
    omega
  · by_contra hc
    have : q * 3 ≤ q * cx := Int.mul_le_mul_of_nonneg_left (by omega) (by omega)
    have : p * dx ≤ p * 2 := Int.mul_le_mul_of_nonneg_left h2 hp
    omega

theorem touched_of {dx dy cx cy p q : Int} (hp : 0 ≤ p) (hpq : p ≤ q) (hq : 0 < q)
    (a : -q ≤ 2 * (p * dx - q * cx)) (b : 2 * (p * dx - q * cx) ≤ q)
    (c : -q ≤ 2 * (p * dy - q * cy)) (d : 2 * (p * dy - q * cy) ≤ q) : Touched dx dy cx cy :=
  ⟨p, q, hp, hpq, hq, ⟨a, b⟩, ⟨c, d⟩⟩

/-- the cells a move of the action table crosses -/
theorem touched_iff (a : Act) (ha : a ∈ navActs) (cx cy : Int) :
    Touched a.dx a.dy cx cy ↔ (cx, cy) = (0, 0) ∨ (cx, cy) ∈ (a.dx, a.dy) :: a.extras := by
  constructor
  · rintro ⟨p, q, hp, hpq, hq, ⟨l1, u1⟩, ⟨l2, u2⟩⟩
    have f := (Act.facts a ha).1
    obtain ⟨b1, b2⟩ := touched_bound hp hpq hq f.1 f.2.1 l1 u1
    obtain ⟨b3, b4⟩ := touched_bound hp hpq hq f.2.2.1 f.2.2.2 l2 u2
    simp only [navActs, List.mem_cons, List.not_mem_nil, or_false] at ha
    rcases ha with rfl | rfl | rfl | rfl | rfl | rfl | rfl | rfl | rfl | rfl | rfl | rfl | rfl | rfl | rfl | rfl <;>
      (simp only at l1 u1 l2 u2
       interval_cases cx <;> interval_cases cy <;> first | (exfalso; omega) | decide)
  · intro h
    have key : ∀ a ∈ navActs, ∀ e ∈ (0, 0) :: (a.dx, a.dy) :: a.extras, ∃ p ∈ [(0 : Int), 1, 2, 3, 4],
        (-4 ≤ 2 * (p * a.dx - 4 * e.1) ∧ 2 * (p * a.dx - 4 * e.1) ≤ 4) ∧
        (-4 ≤ 2 * (p * a.dy - 4 * e.2) ∧ 2 * (p * a.dy - 4 * e.2) ≤ 4) := by decide
    obtain ⟨p, hp, hx, hy⟩ := key a ha (cx, cy) (by rcases h with h | h <;> simp_all)
    refine ⟨p, 4, ?_, ?_, by decide, hx, hy⟩
    · simp only [List.mem_cons, List.not_mem_nil, or_false] at hp; omega
    · simp only [List.mem_cons, List.not_mem_nil, or_false] at hp; omega

theorem act_unique : ∀ a ∈ navActs, ∀ b ∈ navActs, a.dx = b.dx → a.dy = b.dy → a = b := by decide

theorem act_nodup (c : NavCfg) : (c.acts.map (fun a => (a.dx, a.dy))).Nodup := by
  have h : (navActs.map (fun a => (a.dx, a.dy))).Nodup := by decide
  unfold NavCfg.acts
  rw [List.map_take]
  exact h.sublist (List.take_sublist ..)

theorem isLength_dist : ∀ a ∈ navActs, IsLength a.dx a.dy a.dist := by unfold IsLength; decide

theorem isLength_unique {dx dy : Int} {l l' : Nat} (h : IsLength dx dy l) (h' : IsLength dx dy l') : l = l' := by
  obtain ⟨h1, h2⟩ := h
  obtain ⟨h3, h4⟩ := h'
  rcases Nat.lt_trichotomy l l' with q | q | q
  · exfalso
    have : ((l : Int) + 1) * (l + 1) ≤ (l' : Int) * l' := by
      have : (l : Int) + 1 ≤ l' := by exact_mod_cast q
      nlinarith
    omega
  · exact q
  · exfalso
    have : ((l' : Int) + 1) * (l' + 1) ≤ (l : Int) * l := by
      have : (l' : Int) + 1 ≤ l := by exact_mod_cast q
      nlinarith
    omega

/-- number of directions -/
def dirsOf (is16 : Bool) : Nat := if is16 then 16 else 8

theorem acts_eq {c : NavCfg} {is16 : Bool} (hd : c.dirs = dirsOf is16) : c.acts = navActs.take (dirsOf is16) := by
  rw [NavCfg.acts, hd]

theorem isMove_of_act : ∀ is16, ∀ a ∈ navActs.take (dirsOf is16), IsMove is16 a.dx a.dy := by
  unfold IsMove dirsOf; decide

theorem act_of_isMove {is16 : Bool} {dx dy : Int} (h : IsMove is16 dx dy) :
    ∃ a ∈ navActs.take (dirsOf is16), a.dx = dx ∧ a.dy = dy := by
  rcases h with ⟨a1, a2, a3, a4, a5⟩ | ⟨rfl, h⟩
  · have h2 : -1 ≤ dx ∧ dx ≤ 1 ∧ -1 ≤ dy ∧ dy ≤ 1 := ⟨a1, a2, a3, a4⟩
    clear a1 a2 a3 a4
    obtain ⟨a1, a2, a3, a4⟩ := h2
    interval_cases dx <;> interval_cases dy <;>
      first | (exfalso; exact a5 ⟨rfl, rfl⟩) | (cases is16 <;> decide)
  · have b1 : -2 ≤ dx := by nlinarith
    have b2 : dx ≤ 2 := by nlinarith
    have b3 : -2 ≤ dy := by nlinarith
    have b4 : dy ≤ 2 := by nlinarith
    interval_cases dx <;> interval_cases dy <;>
      first | (exfalso; revert h; decide) | decide

theorem mem_ne_zero : ∀ a ∈ navActs, ∀ e ∈ (a.dx, a.dy) :: a.extras, ¬(e.1 = 0 ∧ e.2 = 0) := by decide

/-- the moves GetSuccs finds are the edges of the specification -/
theorem succG_edge {c : NavCfg} {is16 : Bool} (hd : c.dirs = dirsOf is16) {x y : Int} (hin : InMap c.W c.H x y)
    {k : Int × Int} {cost : Nat} :
    (k, cost) ∈ c.acts.filterMap (c.succG x y) ↔ Edge c.W c.H c.grid c.obs is16 (x, y) k cost := by
  rw [List.mem_filterMap, acts_eq hd]
  constructor
  · rintro ⟨a, ha, hs⟩
    have ha' := List.mem_of_mem_take ha
    unfold NavCfg.succG at hs
    split at hs
    · next hc =>
      obtain ⟨hw, hm⟩ := hc
      cases hs
      have ht := NavCfg.within_iff.mp hw
      have ex := NavCfg.extras_within ha' hin ht
      refine ⟨c.foldMax x y a.extras (c.grid (x + a.dx) (y + a.dy)), a.dist, ?_, ⟨?_, ?_, hm⟩, ?_, rfl⟩
      · simpa using isMove_of_act is16 a ha
      · simp only [add_sub_cancel_left]
        intro cx cy hT hn
        rw [touched_iff a ha'] at hT
        have hle := (NavCfg.foldMax_le (c := c) (x := x) (y := y) (l := a.extras)).mp
          (Nat.le_refl (c.foldMax x y a.extras (c.grid (x + a.dx) (y + a.dy))))
        rcases hT with hT | hT
        · exact absurd (by simpa using hT) hn
        · rcases List.mem_cons.mp hT with hT | hT
          · cases hT; exact ⟨ht, hle.1⟩
          · exact ⟨ex _ hT, hle.2 _ hT⟩
      · simp only [add_sub_cancel_left]
        rcases NavCfg.foldMax_mem c x y a.extras (c.grid (x + a.dx) (y + a.dy)) with h | ⟨e, he, h⟩
        · exact ⟨a.dx, a.dy, (touched_iff a ha' _ _).mpr (by simp), mem_ne_zero a ha' (a.dx, a.dy) (by simp), h.symm⟩
        · exact ⟨e.1, e.2, (touched_iff a ha' _ _).mpr (by simp [he]), mem_ne_zero a ha' _ (by simp [he]), h⟩
      · simpa using isLength_dist a ha'
    · cases hs
  · rintro ⟨m, l, hmv, ⟨hall, ⟨cx, cy, hT, hn, hg⟩, hm⟩, hl, rfl⟩
    obtain ⟨a, ha, e1, e2⟩ := act_of_isMove hmv
    have ha' := List.mem_of_mem_take ha
    simp only at hall hT hl e1 e2
    rw [← e1, ← e2] at hall hT hl
    refine ⟨a, ha, ?_⟩
    have t0 := hall a.dx a.dy ((touched_iff a ha' _ _).mpr (by simp)) (mem_ne_zero a ha' (a.dx, a.dy) (by simp))
    have hfm : c.foldMax x y a.extras (c.grid (x + a.dx) (y + a.dy)) = m := by
      apply Nat.le_antisymm
      · rw [NavCfg.foldMax_le]
        refine ⟨t0.2, fun e he => ?_⟩
        exact (hall e.1 e.2 ((touched_iff a ha' _ _).mpr (by simp [he])) (mem_ne_zero a ha' _ (by simp [he]))).2
      · have hle := (NavCfg.foldMax_le (c := c) (x := x) (y := y) (l := a.extras)).mp
          (Nat.le_refl (c.foldMax x y a.extras (c.grid (x + a.dx) (y + a.dy))))
        rw [touched_iff a ha'] at hT
        rcases hT with hT | hT
        · exact absurd (by simpa using hT) hn
        · rcases List.mem_cons.mp hT with hT | hT
          · cases hT; rw [← hg]; exact hle.1
          · rw [← hg]; exact hle.2 _ hT
    unfold NavCfg.succG
    rw [hfm, if_pos ⟨NavCfg.within_iff.mpr t0.1, hm⟩, isLength_unique hl (isLength_dist a ha')]
    have : k = (x + a.dx, y + a.dy) := by
      apply Prod.ext
      · show k.1 = x + a.dx; omega
      · show k.2 = y + a.dy; omega
    rw [this]

/-! ## Reversing a move -/

/-- the opposite of an action crosses the same cells -/
theorem opposite : ∀ is16, ∀ a ∈ navActs.take (dirsOf is16), ∃ b ∈ navActs.take (dirsOf is16),
    b.dx = -a.dx ∧ b.dy = -a.dy ∧ b.dist = a.dist ∧
    (∀ e ∈ a.extras, (e.1 - a.dx, e.2 - a.dy) ∈ b.extras) ∧ (∀ e ∈ b.extras, (e.1 + a.dx, e.2 + a.dy) ∈ a.extras) := by
  unfold dirsOf; decide

theorem foldMax_opposite {c : NavCfg} {x y : Int} {a b : Act} {base : Nat} (hx : b.dx = -a.dx) (hy : b.dy = -a.dy)
    (h1 : ∀ e ∈ a.extras, (e.1 - a.dx, e.2 - a.dy) ∈ b.extras)
    (h2 : ∀ e ∈ b.extras, (e.1 + a.dx, e.2 + a.dy) ∈ a.extras) :
    c.foldMax (x + a.dx) (y + a.dy) b.extras base = c.foldMax x y a.extras base := by
  apply Nat.le_antisymm
  · rw [NavCfg.foldMax_le]
    have h := (NavCfg.foldMax_le (c := c) (x := x) (y := y) (l := a.extras)).mp (Nat.le_refl (c.foldMax x y a.extras base))
    refine ⟨h.1, fun e he => ?_⟩
    have := h.2 _ (h2 e he)
    rw [show x + a.dx + e.1 = x + (e.1 + a.dx) by omega, show y + a.dy + e.2 = y + (e.2 + a.dy) by omega]
    exact this
  · rw [NavCfg.foldMax_le]
    have h := (NavCfg.foldMax_le (c := c) (x := x + a.dx) (y := y + a.dy) (l := b.extras)).mp
      (Nat.le_refl (c.foldMax (x + a.dx) (y + a.dy) b.extras base))
    refine ⟨h.1, fun e he => ?_⟩
    have := h.2 _ (h1 e he)
    rw [show x + a.dx + (e.1 - a.dx, e.2 - a.dy).1 = x + e.1 by simp,
      show y + a.dy + (e.1 - a.dx, e.2 - a.dy).2 = y + e.2 by simp] at this
    exact this

/-- every edge of GetPreds is an edge of GetSuccs -/
theorem predG_succG {c : NavCfg} {is16 : Bool} (hd : c.dirs = dirsOf is16) {s t : Int × Int}
    (ht : InMap c.W c.H t.1 t.2) {cost : Nat} (h : (s, cost) ∈ c.acts.filterMap (c.predG t.1 t.2)) :
    (t, cost) ∈ c.acts.filterMap (c.succG s.1 s.2) := by
  rw [List.mem_filterMap, acts_eq hd] at *
  obtain ⟨a, ha, h⟩ := h
  unfold NavCfg.predG at h
  split at h
  · next hc =>
    obtain ⟨b, hb, b1, b2, b3, b4, b5⟩ := opposite is16 a ha
    simp only [Option.some.injEq, Prod.mk.injEq] at h
    obtain ⟨rfl, rfl⟩ := h
    refine ⟨b, hb, ?_⟩
    have q1 : t.1 + a.dx + b.dx = t.1 := by omega
    have q2 : t.2 + a.dy + b.dy = t.2 := by omega
    unfold NavCfg.succG
    simp only [q1, q2]
    rw [foldMax_opposite b1 b2 b4 b5, if_pos ⟨NavCfg.within_iff.mpr ht, hc.2.2⟩, b3]
  · cases h

/-- an action of GetPreds is the reverse of an action of GetSuccs, for source cells that are not obstacles -/
theorem predG_dual {c : NavCfg} {is16 : Bool} (hd : c.dirs = dirsOf is16) {s t : Int × Int}
    (hs : InMap c.W c.H s.1 s.2) (ht : InMap c.W c.H t.1 t.2) {cost : Nat} :
    (c.grid t.1 t.2 < c.obs ∧ c.grid s.1 s.2 < c.obs ∧ (s, cost) ∈ c.acts.filterMap (c.predG t.1 t.2)) ↔
      (c.grid s.1 s.2 < c.obs ∧ (t, cost) ∈ c.acts.filterMap (c.succG s.1 s.2)) := by
  rw [List.mem_filterMap, List.mem_filterMap, acts_eq hd]
  constructor
  · rintro ⟨hto, hso, a, ha, h⟩
    refine ⟨hso, ?_⟩
    have := predG_succG hd ht (s := s) (cost := cost) (List.mem_filterMap.mpr ⟨a, by rw [acts_eq hd]; exact ha, h⟩)
    rw [List.mem_filterMap, acts_eq hd] at this
    exact this
  · rintro ⟨hso, a, ha, h⟩
    unfold NavCfg.succG at h
    split at h
    · next hc =>
      obtain ⟨b, hb, b1, b2, b3, b4, b5⟩ := opposite is16 a ha
      simp only [Option.some.injEq, Prod.mk.injEq] at h
      obtain ⟨rfl, rfl⟩ := h
      have q1 : s.1 + a.dx + b.dx = s.1 := by omega
      have q2 : s.2 + a.dy + b.dy = s.2 := by omega
      have hle := ((NavCfg.foldMax_le (c := c) (x := s.1) (y := s.2) (l := a.extras)).mp
          (Nat.le_refl (c.foldMax s.1 s.2 a.extras (c.grid (s.1 + a.dx) (s.2 + a.dy))))).1
      refine ⟨Nat.lt_of_le_of_lt hle hc.2, hso, b, hb, ?_⟩
      unfold NavCfg.predG
      simp only [q1, q2]
      rw [foldMax_opposite b1 b2 b4 b5, if_pos ⟨NavCfg.within_iff.mpr hs, fun _ => hso, hc.2⟩, b3]
    · cases h

end Sbpl
