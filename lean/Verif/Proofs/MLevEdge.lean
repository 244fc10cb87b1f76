import Verif.Spec.MLev
import Verif.Proofs.XYTEdge
import Verif.Proofs.XYTTrack
/-! # `EnvironmentNAVXYTHETAMLEVLAT`: one action -/

namespace Sbpl.MEnv
open XEnv XCfg XSpec

/-- a level as the specification sees it -/
def lvl (l : MLev) : Lvl := (l.inp, l.grid)

/-! ## the loops -/

/-- the largest of the costs, at the levels, of a cell -/
def topAt (x y : Int) (L : List (MLev × Nat)) (m : Nat) : Nat := L.foldl (fun m lv => max m (lv.1.grid x y)) m

theorem topAt_spec (x y : Int) : ∀ (L : List (MLev × Nat)) (m : Nat), m ≤ topAt x y L m ∧ (∀ lv ∈ L, lv.1.grid x y ≤ topAt x y L m) ∧
    (topAt x y L m = m ∨ ∃ lv ∈ L, lv.1.grid x y = topAt x y L m) := by
  intro L
  induction L with
  | nil => intro m; simp [topAt]
  | cons a L ih =>
    intro m
    have e : topAt x y (a :: L) m = topAt x y L (max m (a.1.grid x y)) := rfl
    rw [e]
    obtain ⟨h1, h2, h3⟩ := ih (max m (a.1.grid x y))
    refine ⟨by omega, ?_, ?_⟩
    · intro lv hl
      rcases List.mem_cons.mp hl with rfl | hl
      · omega
      · exact h2 lv hl
    · rcases h3 with h3 | ⟨lv, hl, h3⟩
      · rcases Nat.le_total m (a.1.grid x y) with k | k
        · right; exact ⟨a, by simp, by rw [h3]; omega⟩
        · left; rw [h3]; omega
      · right; exact ⟨lv, by simp [hl], h3⟩

theorem levLoop_spec (obs : Nat) (x y : Int) : ∀ (L : List (MLev × Nat)) (m : Nat),
    ((levLoop obs x y L m).1 ≥ obs ∧ ∃ lv ∈ L, max lv.2 (lv.1.grid x y) ≥ lv.1.inp.inscr) ∨
    ((∀ lv ∈ L, max lv.2 (lv.1.grid x y) < lv.1.inp.inscr) ∧
      levLoop obs x y L m = (topAt x y L m, L.map (fun lv => (lv.1, max lv.2 (lv.1.grid x y))))) := by
  intro L
  induction L with
  | nil => intro m; right; simp [levLoop, topAt]
  | cons a L ih =>
    intro m
    obtain ⟨l, v⟩ := a
    simp only [levLoop]
    by_cases h : max v (l.grid x y) ≥ l.inp.inscr
    · rw [if_pos h]
      left; exact ⟨Nat.le_refl _, (l, v), by simp, h⟩
    · rw [if_neg h]
      rcases ih (max m (l.grid x y)) with ⟨h1, lv, hl, h2⟩ | ⟨h1, h2⟩
      · left; exact ⟨h1, lv, by simp [hl], h2⟩
      · right
        refine ⟨?_, ?_⟩
        · intro lv hl
          rcases List.mem_cons.mp hl with rfl | hl
          · exact Nat.lt_of_not_le h
          · exact h1 lv hl
        · rw [h2]; simp [topAt]

/-- the largest cost of a cell of the list, at one level -/
def maxAt (sx sy : Int) (g : Int → Int → Nat) (qs : List (Int × Int)) (v : Nat) : Nat := qs.foldl (fun v q => max v (g (q.1 + sx) (q.2 + sy))) v

theorem maxAt_spec (sx sy : Int) (g : Int → Int → Nat) : ∀ (qs : List (Int × Int)) (v : Nat), v ≤ maxAt sx sy g qs v ∧
    (∀ q ∈ qs, g (q.1 + sx) (q.2 + sy) ≤ maxAt sx sy g qs v) ∧ (maxAt sx sy g qs v = v ∨ ∃ q ∈ qs, g (q.1 + sx) (q.2 + sy) = maxAt sx sy g qs v) := by
  intro qs
  induction qs with
  | nil => intro v; simp [maxAt]
  | cons a qs ih =>
    intro v
    have e : maxAt sx sy g (a :: qs) v = maxAt sx sy g qs (max v (g (a.1 + sx) (a.2 + sy))) := rfl
    rw [e]
    obtain ⟨h1, h2, h3⟩ := ih (max v (g (a.1 + sx) (a.2 + sy)))
    refine ⟨by omega, ?_, ?_⟩
    · intro q hq
      rcases List.mem_cons.mp hq with rfl | hq
      · omega
      · exact h2 q hq
    · rcases h3 with h3 | ⟨q, hq, h3⟩
      · rcases Nat.le_total v (g (a.1 + sx) (a.2 + sy)) with k | k
        · right; exact ⟨a, by simp, by rw [h3]; omega⟩
        · left; rw [h3]; omega
      · right; exact ⟨q, by simp [hq], h3⟩

/-- the cells are in the map, and at all levels below both thresholds -/
def CellsOk (c : XCfg) (sx sy : Int) (qs : List (Int × Int)) (ls : List MLev) : Prop :=
  ∀ q ∈ qs, c.within (q.1 + sx) (q.2 + sy) = true ∧ ∀ l ∈ ls, l.grid (q.1 + sx) (q.2 + sy) < c.obs ∧ l.grid (q.1 + sx) (q.2 + sy) < l.inp.inscr

theorem centreLoop_done {c : XCfg} {sx sy : Int} {qs : List (Int × Int)} {m : Nat} {L : List (MLev × Nat)} (h : m ≥ c.obs) :
    centreLoop c sx sy qs m L = (m, L) := by
  cases qs with
  | nil => rfl
  | cons q qs => simp only [centreLoop]; rw [if_pos h]

/-- the result of the loop over the centre cells -/
theorem centreLoop_spec {c : XCfg} {sx sy : Int} : ∀ (qs : List (Int × Int)) (m : Nat) (L : List (MLev × Nat)), m < c.obs →
    (∀ lv ∈ L, lv.2 = 0 ∨ lv.2 < lv.1.inp.inscr) →
    ((centreLoop c sx sy qs m L).1 ≥ c.obs ∧ ¬ CellsOk c sx sy qs (L.map Prod.fst)) ∨
    (CellsOk c sx sy qs (L.map Prod.fst) ∧ (centreLoop c sx sy qs m L).2 = L.map (fun lv => (lv.1, maxAt sx sy lv.1.grid qs lv.2)) ∧
      (centreLoop c sx sy qs m L).1 < c.obs ∧ m ≤ (centreLoop c sx sy qs m L).1 ∧
      (∀ q ∈ qs, ∀ lv ∈ L, lv.1.grid (q.1 + sx) (q.2 + sy) ≤ (centreLoop c sx sy qs m L).1) ∧
      ((centreLoop c sx sy qs m L).1 = m ∨ ∃ q ∈ qs, ∃ lv ∈ L, lv.1.grid (q.1 + sx) (q.2 + sy) = (centreLoop c sx sy qs m L).1)) := by
  intro qs
  induction qs with
  | nil =>
    intro m L hm _
    right
    refine ⟨?_, ?_, ?_, ?_, ?_, ?_⟩
    · intro q hq; cases hq
    · simp [centreLoop, maxAt]
    · exact hm
    · exact Nat.le_refl _
    · intro q hq; cases hq
    · left; rfl
  | cons q qs ih =>
    intro m L hm hL
    by_cases hw : c.within (q.1 + sx) (q.2 + sy) = false
    · left
      simp only [centreLoop]
      rw [if_neg (by omega), if_pos hw]
      refine ⟨Nat.le_refl _, fun h => ?_⟩
      have := (h q (by simp)).1
      rw [hw] at this; cases this
    · have eq : centreLoop c sx sy (q :: qs) m L = centreLoop c sx sy qs (levLoop c.obs (q.1 + sx) (q.2 + sy) L m).1 (levLoop c.obs (q.1 + sx) (q.2 + sy) L m).2 := by
        simp only [centreLoop]
        rw [if_neg (by omega), if_neg hw]
      rw [eq]
      rcases levLoop_spec c.obs (q.1 + sx) (q.2 + sy) L m with ⟨h1, lv, hl, h2⟩ | ⟨h1, h2⟩
      · left
        rw [centreLoop_done h1]
        refine ⟨h1, fun h => ?_⟩
        have := ((h q (by simp)).2 lv.1 (List.mem_map.mpr ⟨lv, hl, rfl⟩)).2
        rcases hL lv hl with k | k <;> omega
      · rw [h2]
        dsimp only
        obtain ⟨t1, t2, t3⟩ := topAt_spec (q.1 + sx) (q.2 + sy) L m
        have hmap : (L.map (fun lv => (lv.1, max lv.2 (lv.1.grid (q.1 + sx) (q.2 + sy))))).map Prod.fst = L.map Prod.fst := by
          rw [List.map_map]; rfl
        by_cases ho : topAt (q.1 + sx) (q.2 + sy) L m < c.obs
        · have i := ih (topAt (q.1 + sx) (q.2 + sy) L m) (L.map (fun lv => (lv.1, max lv.2 (lv.1.grid (q.1 + sx) (q.2 + sy))))) ho (by
            intro lv hl
            obtain ⟨lv', hl', rfl⟩ := List.mem_map.mp hl
            right; exact h1 lv' hl')
          rw [hmap] at i
          rcases i with ⟨i1, i2⟩ | ⟨i1, i2, i3, i4, i5, i6⟩
          · left; exact ⟨i1, fun h => i2 (fun r hr => h r (by simp [hr]))⟩
          · right
            refine ⟨?_, ?_, i3, by omega, ?_, ?_⟩
            · intro r hr
              rcases List.mem_cons.mp hr with rfl | hr
              · refine ⟨by simpa using hw, ?_⟩
                intro l hl
                obtain ⟨lv, hl', rfl⟩ := List.mem_map.mp hl
                have a := t2 lv hl'
                have b := h1 lv hl'
                omega
              · exact i1 r hr
            · rw [i2, List.map_map]; rfl
            · intro r hr lv hl
              rcases List.mem_cons.mp hr with rfl | hr
              · exact Nat.le_trans (t2 lv hl) i4
              · exact i5 r hr (lv.1, max lv.2 (lv.1.grid (q.1 + sx) (q.2 + sy))) (List.mem_map.mpr ⟨lv, hl, rfl⟩)
            · rcases i6 with i6 | ⟨r, hr, lv, hl, i6⟩
              · rcases t3 with t3 | ⟨lv, hl, t3⟩
                · left; rw [i6, t3]
                · right; exact ⟨q, by simp, lv, hl, by rw [i6, t3]⟩
              · obtain ⟨lv', hl', rfl⟩ := List.mem_map.mp hl
                right; exact ⟨r, by simp [hr], lv', hl', i6⟩
        · left
          rw [centreLoop_done (by omega)]
          refine ⟨by dsimp only; omega, fun h => ?_⟩
          rcases t3 with t3 | ⟨lv, hl, t3⟩
          · omega
          · have := ((h q (by simp)).2 lv.1 (List.mem_map.mpr ⟨lv, hl, rfl⟩)).1
            omega

/-- a level whose footprint hits something -/
def hits (c : XCfg) (sx sy : Int) (a : XAct) (l : MLev) (v : Nat) : Bool :=
  l.inp.poly && decide (v ≥ l.inp.circ) && (l.inter a.startTheta a.aind).any (fun q => !validAt c l (q.1 + sx) (q.2 + sy))

theorem footLoop_spec {c : XCfg} {sx sy : Int} {a : XAct} : ∀ (L : List (MLev × Nat)) (m : Nat), m < c.obs →
    (footLoop c sx sy a L m ≥ c.obs ∧ ∃ lv ∈ L, hits c sx sy a lv.1 lv.2 = true) ∨
    ((∀ lv ∈ L, hits c sx sy a lv.1 lv.2 = false) ∧ footLoop c sx sy a L m = m) := by
  have done : ∀ (L : List (MLev × Nat)) (m : Nat), m ≥ c.obs → footLoop c sx sy a L m = m := by
    intro L m h
    cases L with
    | nil => rfl
    | cons lv L => obtain ⟨l, v⟩ := lv; simp only [footLoop]; rw [if_pos h]
  intro L
  induction L with
  | nil => intro m _; right; simp [footLoop]
  | cons lv L ih =>
    intro m hm
    obtain ⟨l, v⟩ := lv
    simp only [footLoop]
    rw [if_neg (by omega)]
    show ((if hits c sx sy a l v = true then footLoop c sx sy a L c.obs else footLoop c sx sy a L m) ≥ c.obs ∧ _) ∨
      (_ ∧ (if hits c sx sy a l v = true then footLoop c sx sy a L c.obs else footLoop c sx sy a L m) = m)
    by_cases h : hits c sx sy a l v = true
    · rw [if_pos h, done L c.obs (Nat.le_refl _)]
      left; exact ⟨Nat.le_refl _, (l, v), by simp, h⟩
    · rw [if_neg h]
      rcases ih m hm with ⟨h1, lv, hl, h2⟩ | ⟨h1, h2⟩
      · left; exact ⟨h1, lv, by simp [hl], h2⟩
      · right
        refine ⟨?_, h2⟩
        intro lv hl
        rcases List.mem_cons.mp hl with rfl | hl
        · simpa using h
        · exact h1 lv hl

/-! ## the cost across the additional levels -/

/-- what makes a transition possible at the additional levels (apart from the cells of the ends being valid) -/
structure AddOk (c : XCfg) (ls : List MLev) (sx sy : Int) (a : XAct) : Prop where
  dst : ∀ l ∈ ls, l.grid (sx + a.dX) (sy + a.dY) < l.inp.inscr
  cells : ls ≠ [] → CellsOk c sx sy a.interm ls
  foot : ∀ l ∈ ls, hits c sx sy a l (maxAt sx sy l.grid a.interm 0) = false

theorem addCost_spec {c : XCfg} {ls : List MLev} {sx sy : Int} {a : XAct} (h1 : valid c ls sx sy = true) (h2 : valid c ls (sx + a.dX) (sy + a.dY) = true)
    (hobs : 0 < c.obs) :
    (addCost c ls sx sy a = INFINITECOST ∧ ¬ AddOk c ls sx sy a) ∨
    (AddOk c ls sx sy a ∧ (ls = [] ∧ addCost c ls sx sy a = 0 ∨ ls ≠ [] ∧ ∃ w, addCost c ls sx sy a = a.cost * (w + 1) ∧
      (∀ q ∈ a.interm, ∀ l ∈ ls, l.grid (q.1 + sx) (q.2 + sy) ≤ w) ∧ (w = 0 ∨ ∃ q ∈ a.interm, ∃ l ∈ ls, l.grid (q.1 + sx) (q.2 + sy) = w))) := by
  unfold addCost
  rw [if_neg (by simp [h1]), if_neg (by simp [h2])]
  by_cases hn : ls = []
  · subst hn
    rw [if_pos rfl]
    right
    exact ⟨⟨by simp, fun h => absurd rfl h, by simp⟩, .inl ⟨rfl, rfl⟩⟩
  · rw [if_neg hn]
    by_cases hd : ls.any (fun l => decide (l.grid (sx + a.dX) (sy + a.dY) ≥ l.inp.inscr)) = true
    · rw [if_pos hd]
      left
      refine ⟨rfl, fun h => ?_⟩
      obtain ⟨l, hl, hb⟩ := List.any_eq_true.mp hd
      have := h.dst l hl
      rw [decide_eq_true_iff] at hb
      omega
    · rw [if_neg hd]
      rw [Bool.not_eq_true, List.any_eq_false] at hd
      have hd' : ∀ l ∈ ls, l.grid (sx + a.dX) (sy + a.dY) < l.inp.inscr := by
        intro l hl
        have := hd l hl
        rw [decide_eq_true_iff] at this
        omega
      have hfst : (ls.map (fun l => (l, (0 : Nat)))).map Prod.fst = ls := by rw [List.map_map]; simp [Function.comp_def]
      have cs := centreLoop_spec (c := c) (sx := sx) (sy := sy) a.interm 0 (ls.map (fun l => (l, 0))) hobs (by
        intro lv hl
        obtain ⟨l, -, rfl⟩ := List.mem_map.mp hl
        exact .inl rfl)
      rw [hfst] at cs
      dsimp only
      rcases cs with ⟨c1, c2⟩ | ⟨c1, c2, c3, -, c5, c6⟩
      · left
        have : ∀ L, footLoop c sx sy a L (centreLoop c sx sy a.interm 0 (ls.map (fun l => (l, 0)))).1 ≥ c.obs := by
          intro L
          cases L with
          | nil => exact c1
          | cons lv L => obtain ⟨l, v⟩ := lv; simp only [footLoop]; rw [if_pos c1]; exact c1
        rw [if_pos (this _)]
        exact ⟨rfl, fun h => c2 (h.cells hn)⟩
      · rw [List.map_map] at c2
        rcases footLoop_spec (c := c) (sx := sx) (sy := sy) (a := a) (centreLoop c sx sy a.interm 0 (ls.map (fun l => (l, 0)))).2 _ c3 with ⟨f1, lv, hl, f2⟩ | ⟨f1, f2⟩
        · left
          rw [if_pos f1]
          refine ⟨rfl, fun h => ?_⟩
          rw [c2] at hl
          obtain ⟨l, hl', rfl⟩ := List.mem_map.mp hl
          have := h.foot l hl'
          simp only [Function.comp] at f2
          rw [this] at f2; cases f2
        · right
          rw [f2, if_neg (by omega)]
          refine ⟨⟨hd', fun _ => c1, ?_⟩, .inr ⟨hn, _, rfl, ?_, ?_⟩⟩
          · intro l hl
            have := f1 (l, maxAt sx sy l.grid a.interm 0) (by rw [c2]; exact List.mem_map.mpr ⟨l, hl, rfl⟩)
            exact this
          · intro q hq l hl
            exact c5 q hq (l, 0) (List.mem_map.mpr ⟨l, hl, rfl⟩)
          · rcases c6 with c6 | ⟨q, hq, lv, hl, c6⟩
            · exact .inl c6
            · obtain ⟨l, hl', rfl⟩ := List.mem_map.mp hl
              exact .inr ⟨q, hq, l, hl', c6⟩

/-! ## the cost at the base level -/

theorem freeAt_iff {obs : Nat} {ls : List MLev} {x y : Int} : freeAt obs ls x y = true ↔ ∀ l ∈ ls, l.grid x y < obs := by
  unfold freeAt
  rw [List.all_eq_true]
  simp

theorem valid_iff {c : XCfg} {ls : List MLev} {x y : Int} : valid c ls x y = true ↔ c.valid x y = true ∧ ∀ l ∈ ls, l.grid x y < c.obs := by
  unfold valid
  by_cases h : c.valid x y = false
  · rw [if_pos h]; simp [h]
  · rw [if_neg h, freeAt_iff]
    simp at h
    simp [h]

/-- the base footprint also has to avoid the obstacles of the other levels -/
def BaseFree (c : XCfg) (ls : List MLev) (sx sy : Int) (a : XAct) : Prop :=
  ∀ v, c.scan sx sy a.interm 0 = some v → c.poly = true → v ≥ c.circ → ∀ q ∈ a.inter, ∀ l ∈ ls, l.grid (q.1 + sx) (q.2 + sy) < c.obs

theorem costWith_spec {c : XCfg} {ls : List MLev} {sx sy : Int} {a : XAct} (h1 : valid c ls sx sy = true) (h2 : valid c ls (sx + a.dX) (sy + a.dY) = true) :
    (costWith (valid c ls) c sx sy a = c.actionCost sx sy a ∧ BaseFree c ls sx sy a) ∨
    (costWith (valid c ls) c sx sy a = INFINITECOST ∧ (BaseFree c ls sx sy a → c.actionCost sx sy a = INFINITECOST)) := by
  have b1 := (valid_iff.mp h1).1
  have b2 := (valid_iff.mp h2).1
  have n1 : ¬ valid c ls sx sy = false := by simp [h1]
  have n2 : ¬ valid c ls (sx + a.dX) (sy + a.dY) = false := by simp [h2]
  have n3 : ¬ c.valid sx sy = false := by simp [b1]
  have n4 : ¬ c.valid (sx + a.dX) (sy + a.dY) = false := by simp [b2]
  unfold costWith XCfg.actionCost
  rw [if_neg n1, if_neg n2, if_neg n3, if_neg n4]
  by_cases hi : c.grid (sx + a.dX) (sy + a.dY) ≥ c.inscr
  · rw [if_pos hi, if_pos hi]; right; exact ⟨rfl, fun _ => rfl⟩
  rw [if_neg hi, if_neg hi]
  cases hsc : c.scan sx sy a.interm 0 with
  | none => right; exact ⟨rfl, fun _ => rfl⟩
  | some v =>
    dsimp only
    by_cases k : (c.poly && decide (v ≥ c.circ) && a.inter.any (fun q => !valid c ls (q.1 + sx) (q.2 + sy))) = true
    · rw [if_pos k]
      right
      refine ⟨rfl, fun hb => ?_⟩
      rw [Bool.and_eq_true, Bool.and_eq_true, decide_eq_true_iff] at k
      obtain ⟨⟨k1, k2⟩, k3⟩ := k
      obtain ⟨q, hq, hbad⟩ := List.any_eq_true.mp k3
      have hl := hb v hsc k1 k2 q hq
      have hcv : c.valid (q.1 + sx) (q.2 + sy) = false := by
        by_contra hc
        rw [Bool.not_eq_false] at hc
        rw [valid_iff.mpr ⟨hc, hl⟩] at hbad
        cases hbad
      rw [if_pos]
      rw [Bool.and_eq_true, Bool.and_eq_true, decide_eq_true_iff]
      exact ⟨⟨k1, k2⟩, List.any_eq_true.mpr ⟨q, hq, by simp [hcv]⟩⟩
    · rw [if_neg k]
      left
      have bf : ∀ q ∈ a.inter, c.poly = true → v ≥ c.circ → valid c ls (q.1 + sx) (q.2 + sy) = true := by
        intro q hq hp hc
        by_contra hv
        rw [Bool.not_eq_true] at hv
        apply k
        rw [Bool.and_eq_true, Bool.and_eq_true, decide_eq_true_iff]
        exact ⟨⟨hp, hc⟩, List.any_eq_true.mpr ⟨q, hq, by simp [hv]⟩⟩
      constructor
      · rw [if_neg]
        rw [Bool.and_eq_true, Bool.and_eq_true, decide_eq_true_iff]
        rintro ⟨⟨k1, k2⟩, k3⟩
        obtain ⟨q, hq, hbad⟩ := List.any_eq_true.mp k3
        rw [(valid_iff.mp (bf q hq k1 k2)).1] at hbad
        cases hbad
      · intro v' hv' hp hc q hq
        rw [hsc] at hv'; cases hv'
        exact (valid_iff.mp (bf q hq hp hc)).2

end Sbpl.MEnv
