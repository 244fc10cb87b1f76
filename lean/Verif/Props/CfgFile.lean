import Verif.Proofs.Scan
import Verif.Spec.Nav2D
import Mathlib.Tactic.SplitIfs
/-!
# Reading map files (`EnvironmentNAV2D::InitializeEnv(file)`, `EnvironmentNAVXYTHETALATTICE::InitializeEnv(file)`)
-/

namespace Sbpl.CfgFileProps
open Sbpl Scan FileSpec GridSpec

theorem need_layout {w : Word} {ws : List Word} {t : Text} (h : Layout (w :: ws) t) (hs : w.length < 1024) :
    ∃ t', need t = .ok (w, t') ∧ Layout ws t' := by
  obtain ⟨t', e, L, _⟩ := word_layout h hs
  exact ⟨t', by unfold need; rw [bind_ok e]; rfl, L⟩

theorem need_eof {t : Text} (h : Layout [] t) : need t = .error .thrown := by
  unfold need; rw [bind_ok (word_eof h)]; rfl

theorem need_long {w : Word} {ws : List Word} {t : Text} (h : Layout (w :: ws) t) (hs : 1024 ≤ w.length) : need t = .error .ub := by
  unfold need; rw [bind_err (word_long h hs)]

theorem label_layout {s : String} {ws : List Word} {t : Text} (h : Layout (s.toList :: ws) t) (hs : s.toList.length < 1024) :
    ∃ t', label s t = .ok ((), t') ∧ Layout ws t' := by
  obtain ⟨t', e, L⟩ := need_layout h hs
  refine ⟨t', ?_, L⟩
  unfold label
  rw [bind_ok e]
  have : (if s.toList = s.toList then (pure () : Rd Unit) else fail .thrown) = pure () := if_pos rfl
  rw [this]; rfl

theorem needInt_layout {w : Word} {v : Int} {ws : List Word} {t : Text} (h : Layout (w :: ws) t) (hs : w.length < 1024) (hi : IsInt w v) (hv : IntRange v) :
    ∃ t', needInt t = .ok (v, t') ∧ Layout ws t' := by
  obtain ⟨t', e, L⟩ := need_layout h hs
  exact ⟨t', by unfold needInt; rw [bind_ok e]; exact atoi_int hi hv t', L⟩

theorem needDec_layout {w : Word} {v : ℚ} {ws : List Word} {t : Text} (h : Layout (w :: ws) t) (hs : w.length < 1024) (hi : IsDec w v) :
    ∃ t', needDec t = .ok (v, t') ∧ Layout ws t' := by
  obtain ⟨t', e, L⟩ := need_layout h hs
  exact ⟨t', by unfold needDec; rw [bind_ok e]; exact atof_dec hi t', L⟩

/-- the words of a text are unique -/
theorem layout_unique : ∀ {ws ws' : List Word} {t : Text}, Layout ws t → Layout ws' t → ws = ws' := by
  intro ws
  induction ws with
  | nil =>
    intro ws' t h h'
    cases ws' with
    | nil => rfl
    | cons w ws' =>
      obtain ⟨r, h1, h2, _⟩ := layout_drop h'
      rw [layout_nil h] at h1
      cases w <;> simp at h1 h2
  | cons w ws ih =>
    intro ws' t h h'
    cases ws' with
    | nil =>
      obtain ⟨r, h1, h2, _⟩ := layout_drop h
      rw [layout_nil h'] at h1
      cases w <;> simp at h1 h2
    | cons v ws' =>
      obtain ⟨t1, e1, L1, _⟩ := word_layout h (size := w.length + v.length + 1) (by omega)
      obtain ⟨t2, e2, L2, _⟩ := word_layout h' (size := w.length + v.length + 1) (by omega)
      rw [e1] at e2; cases e2
      rw [ih L1 L2]

/-! ### converse: what a successful read says about the words -/

theorem need_inv {ws : List Word} {t t' : Text} {w : List Char} (L : Layout ws t) (h : need t = .ok (w, t')) :
    ∃ ws', ws = w :: ws' ∧ w.length < 1024 ∧ Layout ws' t' := by
  cases ws with
  | nil => rw [need_eof L] at h; cases h
  | cons v ws =>
    by_cases hs : v.length < 1024
    · obtain ⟨t'', e, L'⟩ := need_layout L hs
      rw [e] at h; cases h
      exact ⟨ws, rfl, hs, L'⟩
    · rw [need_long L (by omega)] at h; cases h

theorem label_inv {ws : List Word} {t t' : Text} {s : String} {u : Unit} (L : Layout ws t) (h : label s t = .ok (u, t')) :
    ∃ ws', ws = s.toList :: ws' ∧ Layout ws' t' := by
  unfold label at h
  obtain ⟨w, t1, h1, h2⟩ := bind_inv h
  obtain ⟨ws', e, _, L'⟩ := need_inv L h1
  by_cases hw : w = s.toList
  · have : (if w = s.toList then (pure () : Rd Unit) else fail .thrown) = pure () := if_pos hw
    rw [this] at h2; cases h2
    exact ⟨ws', by rw [e, hw], L'⟩
  · have : (if w = s.toList then (pure () : Rd Unit) else fail .thrown) = fail .thrown := if_neg hw
    rw [this] at h2; cases h2

theorem inInt_inv {v r : Int} {t t' : Text} (h : inInt v t = .ok (r, t')) : r = v ∧ t' = t ∧ IntRange v := by
  by_cases hv : IntRange v
  · rw [inInt_ok hv] at h; cases h; exact ⟨rfl, rfl, hv⟩
  · have : inInt v = fail .ub := if_neg hv
    rw [this] at h; cases h

theorem atoi_inv {w : List Char} {v : Int} {t t' : Text} (h : atoi w t = .ok (v, t')) : t' = t ∧ IntRange v := by
  cases hp : intPrefix w with
  | none =>
    have : atoi w = pure 0 := by unfold atoi; rw [hp]
    rw [this] at h
    cases h; exact ⟨rfl, by unfold IntRange; omega⟩
  | some p =>
    have : atoi w = inInt p.1 := by unfold atoi; rw [hp]
    rw [this] at h
    obtain ⟨rfl, rfl, hv⟩ := inInt_inv h; exact ⟨rfl, hv⟩

theorem atof_inv {w : List Char} {v : ℚ} {t t' : Text} (h : atof w t = .ok (v, t')) : t' = t := by
  by_cases hs : special (optSign w).2 = true
  · have : atof w = fail .other := by unfold atof; rw [if_pos hs]
    rw [this] at h; cases h
  · cases hp : decPrefix w with
    | none =>
      have : atof w = pure 0 := by unfold atof; rw [if_neg hs, hp]
      rw [this] at h; cases h; rfl
    | some p =>
      have : atof w = pure p.1 := by unfold atof; rw [if_neg hs, hp]
      rw [this] at h; cases h; rfl

theorem needInt_inv {ws : List Word} {t t' : Text} {v : Int} (L : Layout ws t) (h : needInt t = .ok (v, t')) :
    ∃ w ws', ws = w :: ws' ∧ w.length < 1024 ∧ IntRange v ∧ Layout ws' t' := by
  unfold needInt at h
  obtain ⟨w, t1, h1, h2⟩ := bind_inv h
  obtain ⟨ws', e, hl, L'⟩ := need_inv L h1
  obtain ⟨rfl, hv⟩ := atoi_inv h2
  exact ⟨w, ws', e, hl, hv, L'⟩

theorem needDec_inv {ws : List Word} {t t' : Text} {v : ℚ} (L : Layout ws t) (h : needDec t = .ok (v, t')) :
    ∃ w ws', ws = w :: ws' ∧ w.length < 1024 ∧ Layout ws' t' := by
  unfold needDec at h
  obtain ⟨w, t1, h1, h2⟩ := bind_inv h
  obtain ⟨ws', e, hl, L'⟩ := need_inv L h1
  have := atof_inv h2; subst this
  exact ⟨w, ws', e, hl, L'⟩

theorem inside_ok {W H x y : Int} (h : InMap W H x y) (t : Text) : inside W H x y t = .ok ((), t) := by
  obtain ⟨a, b, c, d⟩ := h
  have : inside W H x y = pure () := by unfold inside; rw [if_neg (by omega), if_neg (by omega)]
  rw [this]; rfl

theorem inside_err {W H x y : Int} (h : ¬ InMap W H x y) (t : Text) : inside W H x y t = .error .thrown := by
  have : inside W H x y = fail .thrown := by
    unfold inside InMap at *
    by_cases h1 : x < 0 ∨ x ≥ W
    · rw [if_pos h1]
    · rw [if_neg h1, if_pos (by omega)]
  rw [this]; rfl

theorem inside_inv {W H x y : Int} {t : Text} {r : Unit × Text} (h : inside W H x y t = .ok r) : InMap W H x y ∧ r.2 = t := by
  by_cases hm : InMap W H x y
  · rw [inside_ok hm] at h; cases h; exact ⟨hm, rfl⟩
  · rw [inside_err hm] at h; cases h

/-! ### the cells -/

theorem readCells_layout {cell : Nat → Nat → Word} {val : Nat → Nat → Int} {ws : List Word} :
    ∀ (l : List (Nat × Nat)) (g : Int → Int → Nat) (t : Text), (∀ p ∈ l, IsInt (cell p.1 p.2) (val p.1 p.2) ∧ IntRange (val p.1 p.2)) →
      Layout (l.map (fun p => cell p.1 p.2) ++ ws) t →
      ∃ g' t', readCells l g t = .ok (g', t') ∧ Layout ws t' ∧ (∀ p ∈ l, g' p.1 p.2 = toUchar (val p.1 p.2)) ∧
        ∀ (a b : Int), (∀ p ∈ l, ¬ (a = p.1 ∧ b = p.2)) → g' a b = g a b := by
  intro l
  induction l with
  | nil => intro g t _ L; exact ⟨g, t, rfl, L, by simp, by simp⟩
  | cons p l ih =>
    intro g t hc L
    obtain ⟨x, y⟩ := p
    obtain ⟨c1, c2⟩ := hc (x, y) List.mem_cons_self
    obtain ⟨t1, e, L1, _⟩ := scanD_layout L c1 c2
    obtain ⟨g', t', r1, r2, r3, r4⟩ := ih (fun a b => if a = x ∧ b = y then toUchar (val x y) else g a b) t1
      (fun p hp => hc p (List.mem_cons_of_mem _ hp)) L1
    refine ⟨g', t', ?_, r2, ?_, ?_⟩
    · rw [readCells, bind_ok e]; exact r1
    · intro p hp
      by_cases hl : p ∈ l
      · exact r3 p hl
      · rcases List.mem_cons.mp hp with rfl | hp
        · have := r4 (x : Int) (y : Int) (by
            rintro ⟨a, b⟩ hq ⟨e1, e2⟩
            have f1 : x = a := by simpa using e1
            have f2 : y = b := by simpa using e2
            rw [f1, f2] at hl; exact hl hq)
          rw [this]; simp
        · exact absurd hp hl
    · intro a b hn
      rw [r4 a b (fun p hp => hn p (List.mem_cons_of_mem _ hp))]
      rw [if_neg (hn (x, y) List.mem_cons_self)]

theorem readCells_bad {cell : Nat → Nat → Word} {val : Nat → Nat → Int} {bad : List Word} (hbad : ∀ w, bad.head? = some w → NotInt w) :
    ∀ (l1 l2 : List (Nat × Nat)) (g : Int → Int → Nat) (t : Text), (∀ p ∈ l1, IsInt (cell p.1 p.2) (val p.1 p.2) ∧ IntRange (val p.1 p.2)) → l2 ≠ [] →
      Layout (l1.map (fun p => cell p.1 p.2) ++ bad) t → readCells (l1 ++ l2) g t = .error .thrown := by
  intro l1
  induction l1 with
  | nil =>
    intro l2 g t _ h2 L
    cases l2 with
    | nil => exact absurd rfl h2
    | cons p l2 =>
      obtain ⟨x, y⟩ := p
      show readCells ((x, y) :: l2) g t = _
      cases bad with
      | nil => rw [readCells, bind_ok (scanD_eof L)]; rfl
      | cons w ws =>
        obtain ⟨t', e⟩ := scanD_nomatch L (hbad w rfl)
        rw [readCells, bind_ok e]; rfl
  | cons p l1 ih =>
    intro l2 g t hc h2 L
    obtain ⟨x, y⟩ := p
    obtain ⟨c1, c2⟩ := hc (x, y) List.mem_cons_self
    obtain ⟨t1, e, L1, _⟩ := scanD_layout L c1 c2
    show readCells ((x, y) :: (l1 ++ l2)) g t = _
    rw [readCells, bind_ok e]
    exact ih l2 _ t1 (fun p hp => hc p (List.mem_cons_of_mem _ hp)) h2 L1

theorem toUchar_lt (v : Int) : toUchar v < 256 := by unfold toUchar; omega

theorem readCells_lt : ∀ (l : List (Nat × Nat)) (g : Int → Int → Nat) (t : Text) {r : (Int → Int → Nat) × Text}, (∀ a b, g a b < 256) →
    readCells l g t = .ok r → ∀ a b, r.1 a b < 256 := by
  intro l
  induction l with
  | nil => intro g t r hg h; cases h; exact hg
  | cons p l ih =>
    intro g t r hg h
    obtain ⟨x, y⟩ := p
    rw [readCells] at h
    obtain ⟨a, t', h1, h2⟩ := bind_inv h
    rcases a with _ | _ | v
    · cases h2
    · cases h2
    · refine ih _ _ ?_ h2
      intro a b
      split_ifs
      · exact toUchar_lt v
      · exact hg a b

theorem mem_coords {W H x y : Nat} : (x, y) ∈ coords W H ↔ x < W ∧ y < H := by
  unfold coords
  simp only [List.mem_flatMap, List.mem_range, List.mem_map, Prod.mk.injEq]
  constructor
  · rintro ⟨a, ha, b, hb, rfl, rfl⟩; exact ⟨hb, ha⟩
  · rintro ⟨h1, h2⟩; exact ⟨y, h2, x, h1, rfl, rfl⟩

theorem rows_eq (W H : Nat) (cell : Nat → Nat → Word) : rows W H cell = (coords W H).map (fun p => cell p.1 p.2) := by
  unfold rows coords
  rw [List.map_flatMap]
  congr 1
  funext y
  rw [List.map_map]; rfl

theorem toInt_floor {q : ℚ} (h0 : 0 ≤ q) (h1 : q < 256) (t : Text) : toInt q t = .ok (⌊q⌋, t) ∧ 0 ≤ ⌊q⌋ ∧ ⌊q⌋ < 256 := by
  have e : Utils.trunc q = ⌊q⌋ := by unfold Utils.trunc; rw [if_pos h0]
  have a : 0 ≤ ⌊q⌋ := Int.floor_nonneg.mpr h0
  have b : ⌊q⌋ < 256 := Int.floor_lt.mpr (by simpa using h1)
  refine ⟨?_, a, b⟩
  unfold toInt
  rw [e]
  exact inInt_ok (by unfold IntRange; omega) t

theorem toUchar_id {v : Int} (h0 : 0 ≤ v) (h1 : v < 256) : (toUchar v : Int) = v := by
  unfold toUchar; omega

/-! ### 2-D grids -/

section nav
variable {dirs : Nat} {l1 w h o l2 sx sy l3 ex ey l4 : Word} {W H : Nat} {a b c d : Int} {q : ℚ} {t : Text} {cells : List Word}

/-- reading up to the word before the map -/
theorem nav_head (L : Layout (nav2dFile l1 w h o l2 sx sy l3 ex ey l4 cells) t)
    (hlen : ∀ u ∈ [l1, w, h, o, l2, sx, sy, l3, ex, ey, l4], u.length < 1024)
    (hw : IsInt w W) (hh : IsInt h H) (hW : W ≤ 2147483647) (hH : H ≤ 2147483647) (ho : IsDec o q) (h0 : 0 ≤ q) (h1 : q < 256)
    (hsx : IsInt sx a) (hsy : IsInt sy b) (hs : InMap W H a b) (hex : IsInt ex c) (hey : IsInt ey d) (he : InMap W H c d) :
    ∃ t', Layout cells t' ∧ readNav2D dirs t = (do
      let g ← readCells (coords W H) (fun _ _ => 0)
      pure ⟨W, H, toUchar ⌊q⌋, g, dirs, (a, b), (c, d)⟩ : Rd NavCfg) t' := by
  have hs' := hs
  have he' := he
  obtain ⟨i1, i2, i3, i4⟩ := hs'
  obtain ⟨j1, j2, j3, j4⟩ := he'
  obtain ⟨t1, e1, L⟩ := need_layout L (hlen _ (by simp))
  obtain ⟨t2, e2, L⟩ := needInt_layout L (hlen _ (by simp)) hw (by unfold IntRange; omega)
  obtain ⟨t3, e3, L⟩ := needInt_layout L (hlen _ (by simp)) hh (by unfold IntRange; omega)
  obtain ⟨t4, e4, L⟩ := label_layout L (by decide)
  obtain ⟨t5, e5, L⟩ := needDec_layout L (hlen _ (by simp)) ho
  obtain ⟨f1, _, _⟩ := toInt_floor h0 h1 t5
  obtain ⟨t6, e6, L⟩ := need_layout L (hlen _ (by simp))
  obtain ⟨t7, e7, L⟩ := needInt_layout L (hlen _ (by simp)) hsx (by unfold IntRange; omega)
  obtain ⟨t8, e8, L⟩ := needInt_layout L (hlen _ (by simp)) hsy (by unfold IntRange; omega)
  obtain ⟨t9, e9, L⟩ := need_layout L (hlen _ (by simp))
  obtain ⟨t10, e10, L⟩ := needInt_layout L (hlen _ (by simp)) hex (by unfold IntRange; omega)
  obtain ⟨t11, e11, L⟩ := needInt_layout L (hlen _ (by simp)) hey (by unfold IntRange; omega)
  obtain ⟨t12, e12, L⟩ := need_layout L (hlen _ (by simp))
  refine ⟨t12, L, ?_⟩
  unfold readNav2D
  rw [bind_ok e1, bind_ok e2, bind_ok e3, bind_ok e4, bind_ok e5, bind_ok f1, bind_ok e6, bind_ok e7, bind_ok e8, bind_ok (inside_ok hs t8),
    bind_ok e9, bind_ok e10, bind_ok e11, bind_ok (inside_ok he t11), bind_ok e12]
  rfl

/-- **C147a** A map file is read as the map it describes: width, height, threshold, start, goal and every cell (cells 0..255).  Only
`obsthresh:` is a fixed word; anything after the map is ignored. -/
theorem nav2d_file_read {cell : Nat → Nat → Word} {val : Nat → Nat → Int} {extra : List Word}
    (L : Layout (nav2dFile l1 w h o l2 sx sy l3 ex ey l4 (rows W H cell ++ extra)) t)
    (hlen : ∀ u ∈ [l1, w, h, o, l2, sx, sy, l3, ex, ey, l4], u.length < 1024)
    (hw : IsInt w W) (hh : IsInt h H) (hW : W ≤ 2147483647) (hH : H ≤ 2147483647) (ho : IsDec o q) (h0 : 0 ≤ q) (h1 : q < 256)
    (hsx : IsInt sx a) (hsy : IsInt sy b) (hs : InMap W H a b) (hex : IsInt ex c) (hey : IsInt ey d) (he : InMap W H c d)
    (hcell : ∀ x y, x < W → y < H → IsInt (cell x y) (val x y) ∧ IntRange (val x y)) :
    ∃ (cfg : NavCfg) (rest : Text), readNav2D dirs t = .ok (cfg, rest) ∧ cfg.W = W ∧ cfg.H = H ∧ cfg.obs = ⌊q⌋ ∧ cfg.start = (a, b) ∧ cfg.goal = (c, d) ∧
      cfg.dirs = dirs ∧ (∀ x y : Nat, x < W → y < H → (cfg.grid x y : Int) = val x y % 256) ∧
      (∀ x y : Nat, x < W → y < H → 0 ≤ val x y → val x y < 256 → (cfg.grid x y : Int) = val x y) := by
  obtain ⟨t', L', e⟩ := nav_head (dirs := dirs) L hlen hw hh hW hH ho h0 h1 hsx hsy hs hex hey he
  rw [rows_eq] at L'
  obtain ⟨g, t2, r1, r2, r3, r4⟩ := readCells_layout (cell := cell) (val := val) (coords W H) (fun _ _ => 0) t'
    (fun p hp => hcell p.1 p.2 (mem_coords.mp hp).1 (mem_coords.mp hp).2) L'
  rw [bind_ok r1] at e
  obtain ⟨_, f0, f1⟩ := toInt_floor h0 h1 t
  have key : ∀ x y : Nat, x < W → y < H → (g x y : Int) = val x y % 256 := by
    intro x y hx hy
    rw [r3 (x, y) (mem_coords.mpr ⟨hx, hy⟩)]
    show (toUchar (val x y) : Int) = _
    unfold toUchar; omega
  refine ⟨_, _, e, rfl, rfl, toUchar_id f0 f1, rfl, rfl, rfl, key, ?_⟩
  intro x y hx hy v0 v1
  show (g x y : Int) = _
  rw [key x y hx hy]; omega

/-- **C147b** A missing cell (the file ends, or the next word does not begin like a number, after `k < W * H` cells) raises an exception. -/
theorem nav2d_file_cells_missing {cell : Nat → Nat → Word} {val : Nat → Nat → Int} {k : Nat} {bad : List Word}
    (L : Layout (nav2dFile l1 w h o l2 sx sy l3 ex ey l4 ((rows W H cell).take k ++ bad)) t)
    (hlen : ∀ u ∈ [l1, w, h, o, l2, sx, sy, l3, ex, ey, l4], u.length < 1024)
    (hw : IsInt w W) (hh : IsInt h H) (hW : W ≤ 2147483647) (hH : H ≤ 2147483647) (ho : IsDec o q) (h0 : 0 ≤ q) (h1 : q < 256)
    (hsx : IsInt sx a) (hsy : IsInt sy b) (hs : InMap W H a b) (hex : IsInt ex c) (hey : IsInt ey d) (he : InMap W H c d)
    (hcell : ∀ x y, x < W → y < H → IsInt (cell x y) (val x y) ∧ IntRange (val x y)) (hk : k < (rows W H cell).length)
    (hbad : ∀ u, bad.head? = some u → NotInt u) :
    readNav2D dirs t = .error .thrown := by
  obtain ⟨t', L', e⟩ := nav_head (dirs := dirs) L hlen hw hh hW hH ho h0 h1 hsx hsy hs hex hey he
  rw [rows_eq, List.length_map] at hk
  rw [rows_eq, ← List.map_take] at L'
  have := readCells_bad (cell := cell) (val := val) hbad ((coords W H).take k) ((coords W H).drop k) (fun _ _ => 0) t'
    (fun p hp => hcell p.1 p.2 (mem_coords.mp (List.mem_of_mem_take hp)).1 (mem_coords.mp (List.mem_of_mem_take hp)).2)
    (by intro h; have := congrArg List.length h; rw [List.length_drop] at this; simp at this; omega) L'
  rw [List.take_append_drop] at this
  rw [e, bind_err this]

/-- **C147c** Whatever the file contains: if it is accepted, the map is not empty, start and goal are cells of the map, costs and threshold are at most 255, and the
file has at least 12 words, the fourth being `obsthresh:`. -/
theorem nav2d_file_safe {cfg : NavCfg} {rest : Text} (e : readNav2D dirs t = .ok (cfg, rest)) :
    0 < cfg.W ∧ 0 < cfg.H ∧ InMap cfg.W cfg.H cfg.start.1 cfg.start.2 ∧ InMap cfg.W cfg.H cfg.goal.1 cfg.goal.2 ∧ cfg.obs < 256 ∧
      (∀ x y, cfg.grid x y < 256) ∧ cfg.dirs = dirs ∧ ∀ ws, Layout ws t → 12 ≤ ws.length ∧ ws[3]? = some "obsthresh:".toList := by
  obtain ⟨ws, L⟩ := layout_exists t
  have uniq : (12 ≤ ws.length ∧ ws[3]? = some "obsthresh:".toList) → ∀ ws', Layout ws' t → 12 ≤ ws'.length ∧ ws'[3]? = some "obsthresh:".toList := by
    intro hh ws' L'
    rw [layout_unique L' L]; exact hh
  unfold readNav2D at e
  obtain ⟨_, t1, e1, e⟩ := bind_inv e
  obtain ⟨s1, w1, L⟩ := need_inv L e1
  obtain ⟨W, t2, e2, e⟩ := bind_inv e
  obtain ⟨_, s2, w2, _, _, L⟩ := needInt_inv L.2 e2
  obtain ⟨H, t3, e3, e⟩ := bind_inv e
  obtain ⟨_, s3, w3, _, _, L⟩ := needInt_inv L e3
  obtain ⟨_, t4, e4, e⟩ := bind_inv e
  obtain ⟨s4, w4, L⟩ := label_inv L e4
  obtain ⟨qq, t5, e5, e⟩ := bind_inv e
  obtain ⟨_, s5, w5, _, L⟩ := needDec_inv L e5
  obtain ⟨oo, t5', e5', e⟩ := bind_inv e
  obtain ⟨_, e5', _⟩ := inInt_inv e5'
  rw [e5'] at e
  obtain ⟨_, t6, e6, e⟩ := bind_inv e
  obtain ⟨s6, w6, L⟩ := need_inv L e6
  obtain ⟨a, t7, e7, e⟩ := bind_inv e
  obtain ⟨_, s7, w7, _, _, L⟩ := needInt_inv L.2 e7
  obtain ⟨b, t8, e8, e⟩ := bind_inv e
  obtain ⟨_, s8, w8, _, _, L⟩ := needInt_inv L e8
  obtain ⟨_, t9, e9, e⟩ := bind_inv e
  obtain ⟨m1, e9⟩ := inside_inv e9
  have e9 : t9 = t8 := e9
  rw [e9] at e
  obtain ⟨_, t10, e10, e⟩ := bind_inv e
  obtain ⟨s10, w10, L⟩ := need_inv L e10
  obtain ⟨c, t11, e11, e⟩ := bind_inv e
  obtain ⟨_, s11, w11, _, _, L⟩ := needInt_inv L.2 e11
  obtain ⟨d, t12, e12, e⟩ := bind_inv e
  obtain ⟨_, s12, w12, _, _, L⟩ := needInt_inv L e12
  obtain ⟨_, t13, e13, e⟩ := bind_inv e
  obtain ⟨m2, e13⟩ := inside_inv e13
  have e13 : t13 = t12 := e13
  rw [e13] at e
  obtain ⟨_, t14, e14, e⟩ := bind_inv e
  obtain ⟨s14, w14, L⟩ := need_inv L e14
  obtain ⟨g, t15, e15, e⟩ := bind_inv e
  cases e
  have gl := readCells_lt _ _ _ (by intro a b; decide) e15
  have m1' := m1
  obtain ⟨i1, i2, i3, i4⟩ := m1'
  refine ⟨by show (0 : Int) < W; omega, by show (0 : Int) < H; omega, m1, m2, toUchar_lt _, gl, rfl, uniq ?_⟩
  subst w14; subst w12; subst w11; subst w10; subst w8; subst w7; subst w6; subst w5; subst w4; subst w3; subst w2; subst w1
  simp

/-- **C147d** A start outside the map raises an exception (so does a goal outside the map, `nav2d_file_goal_outside`). -/
theorem nav2d_file_start_outside {more : List Word}
    (L : Layout ([l1, w, h, "obsthresh:".toList, o, l2, sx, sy] ++ more) t)
    (hlen : ∀ u ∈ [l1, w, h, o, l2, sx, sy], u.length < 1024)
    {W H : Int} (hw : IsInt w W) (hh : IsInt h H) (hW : IntRange W) (hH : IntRange H) (ho : IsDec o q) (h0 : 0 ≤ q) (h1 : q < 256)
    (hsx : IsInt sx a) (hsy : IsInt sy b) (ha : IntRange a) (hb : IntRange b) (hs : ¬ InMap W H a b) :
    readNav2D dirs t = .error .thrown := by
  obtain ⟨t1, e1, L⟩ := need_layout L (hlen _ (by simp))
  obtain ⟨t2, e2, L⟩ := needInt_layout L (hlen _ (by simp)) hw hW
  obtain ⟨t3, e3, L⟩ := needInt_layout L (hlen _ (by simp)) hh hH
  obtain ⟨t4, e4, L⟩ := label_layout L (by decide)
  obtain ⟨t5, e5, L⟩ := needDec_layout L (hlen _ (by simp)) ho
  obtain ⟨f1, _, _⟩ := toInt_floor h0 h1 t5
  obtain ⟨t6, e6, L⟩ := need_layout L (hlen _ (by simp))
  obtain ⟨t7, e7, L⟩ := needInt_layout L (hlen _ (by simp)) hsx ha
  obtain ⟨t8, e8, L⟩ := needInt_layout L (hlen _ (by simp)) hsy hb
  unfold readNav2D
  rw [bind_ok e1, bind_ok e2, bind_ok e3, bind_ok e4, bind_ok e5, bind_ok f1, bind_ok e6, bind_ok e7, bind_ok e8, bind_err (inside_err hs t8)]

theorem nav2d_file_goal_outside {more : List Word}
    (L : Layout ([l1, w, h, "obsthresh:".toList, o, l2, sx, sy, l3, ex, ey] ++ more) t)
    (hlen : ∀ u ∈ [l1, w, h, o, l2, sx, sy, l3, ex, ey], u.length < 1024)
    {W H : Int} (hw : IsInt w W) (hh : IsInt h H) (hW : IntRange W) (hH : IntRange H) (ho : IsDec o q) (h0 : 0 ≤ q) (h1 : q < 256)
    (hsx : IsInt sx a) (hsy : IsInt sy b) (ha : IntRange a) (hb : IntRange b) (hs : InMap W H a b)
    (hex : IsInt ex c) (hey : IsInt ey d) (hc : IntRange c) (hd : IntRange d) (he : ¬ InMap W H c d) :
    readNav2D dirs t = .error .thrown := by
  obtain ⟨t1, e1, L⟩ := need_layout L (hlen _ (by simp))
  obtain ⟨t2, e2, L⟩ := needInt_layout L (hlen _ (by simp)) hw hW
  obtain ⟨t3, e3, L⟩ := needInt_layout L (hlen _ (by simp)) hh hH
  obtain ⟨t4, e4, L⟩ := label_layout L (by decide)
  obtain ⟨t5, e5, L⟩ := needDec_layout L (hlen _ (by simp)) ho
  obtain ⟨f1, _, _⟩ := toInt_floor h0 h1 t5
  obtain ⟨t6, e6, L⟩ := need_layout L (hlen _ (by simp))
  obtain ⟨t7, e7, L⟩ := needInt_layout L (hlen _ (by simp)) hsx ha
  obtain ⟨t8, e8, L⟩ := needInt_layout L (hlen _ (by simp)) hsy hb
  obtain ⟨t9, e9, L⟩ := need_layout L (hlen _ (by simp))
  obtain ⟨t10, e10, L⟩ := needInt_layout L (hlen _ (by simp)) hex hc
  obtain ⟨t11, e11, L⟩ := needInt_layout L (hlen _ (by simp)) hey hd
  unfold readNav2D
  rw [bind_ok e1, bind_ok e2, bind_ok e3, bind_ok e4, bind_ok e5, bind_ok f1, bind_ok e6, bind_ok e7, bind_ok e8, bind_ok (inside_ok hs t8),
    bind_ok e9, bind_ok e10, bind_ok e11, bind_err (inside_err he t11)]

/-- **C148a** (violated: the reader is memory safe on every file) A first word of 1024 or more characters overflows a buffer. -/
theorem nav2d_file_overflow {ws : List Word} (L : Layout (l1 :: ws) t) (hl : 1024 ≤ l1.length) : readNav2D dirs t = .error .ub := by
  unfold readNav2D
  rw [bind_err (need_long L hl)]

end nav

/-- a text made of words -/
theorem layout_join {ws : List Word} (h : ∀ w ∈ ws, w ≠ [] ∧ ∀ c ∈ w, ¬ Blank c) : Layout ws (ws.flatMap (fun w => ' ' :: w)) := by
  induction ws with
  | nil => exact .done (by simp)
  | cons w ws ih =>
    obtain ⟨h1, h2⟩ := h w List.mem_cons_self
    have := Layout.more (s := [' ']) (by simp [Blank]) h1 h2 (t := ws.flatMap (fun w => ' ' :: w)) (by
      cases ws with
      | nil => simp
      | cons v ws => simp [Blank]) (ih (fun w hw => h w (List.mem_cons_of_mem _ hw)))
    simpa using this

instance (c : Char) : Decidable (Blank c) := by unfold Blank; infer_instance

/-- the hypotheses of `nav2d_file_read` are met by a file for a 2 × 1 map -/
example : ∃ (cfg : NavCfg) (rest : Text), readNav2D 8 ((nav2dFile ['a'] ['2'] ['1'] ['1', '.', '5'] ['b'] ['0'] ['0'] ['c'] ['1'] ['0'] ['d']
      (rows 2 1 (fun x _ => if x = 0 then ['0'] else ['7', '7']) ++ [])).flatMap (fun w => ' ' :: w)) = .ok (cfg, rest) ∧
    cfg.W = 2 ∧ cfg.obs = 1 ∧ cfg.start = (0, 0) ∧ cfg.goal = (1, 0) ∧ cfg.grid 1 0 = 77 := by
  have e1 : IsInt ['2'] ((2 : Nat) : Int) := .plain (by decide) (by unfold Digits; decide)
  have e2 : IsInt ['1'] ((1 : Nat) : Int) := .plain (by decide) (by unfold Digits; decide)
  have e0 : IsInt ['0'] 0 := .plain (by decide) (by unfold Digits; decide)
  have e7 : IsInt ['7', '7'] 77 := .plain (by decide) (by unfold Digits; decide)
  have d1 : IsDec ['1', '.', '5'] (3 / 2) := by
    have := IsDec.plain (IsUDec.point (w := ['1']) (f := ['5']) (.inl (by decide)) (by unfold Digits; decide) (by unfold Digits; decide))
    have e : ((decVal ['1'] : ℚ) + decVal ['5'] / 10 ^ (['5'] : Word).length) = 3 / 2 := by
      have a : decVal ['1'] = 1 := by decide
      have b : decVal ['5'] = 5 := by decide
      rw [a, b]; norm_num
    rw [e] at this; exact this
  obtain ⟨cfg, rest, h1, h2, h3, h4, h5, h6, _, h7, h8⟩ := nav2d_file_read (dirs := 8) (W := 2) (H := 1) (val := fun x _ => if x = 0 then 0 else 77)
    (cell := fun x _ => if x = 0 then ['0'] else ['7', '7']) (extra := [])
    (layout_join (ws := nav2dFile ['a'] ['2'] ['1'] ['1', '.', '5'] ['b'] ['0'] ['0'] ['c'] ['1'] ['0'] ['d'] (rows 2 1 (fun x _ => if x = 0 then ['0'] else ['7', '7']) ++ []))
      (by decide +kernel))
    (by decide) e1 e2 (by decide) (by decide) d1 (by norm_num) (by norm_num) e0 e0 (by unfold InMap; decide) (by simpa using e2) e0 (by unfold InMap; decide)
    (by
      intro x y hx hy
      by_cases h : x = 0
      · simp only [h, if_true]; exact ⟨e0, by unfold IntRange; decide⟩
      · simp only [h, if_false]; exact ⟨e7, by unfold IntRange; decide⟩)
  refine ⟨cfg, rest, h1, h2, ?_, h5, h6, ?_⟩
  · have : ⌊(3 / 2 : ℚ)⌋ = 1 := by norm_num [Int.floor_eq_iff]
    rw [this] at h4; exact_mod_cast h4
  · have := h8 1 0 (by decide) (by decide) (by decide) (by decide)
    have this : (cfg.grid 1 0 : Int) = 77 := by simpa using this
    exact_mod_cast this

/-- what was read, on a few cells -/
structure NavView where
  W : Int
  H : Int
  obs : Nat
  start : Int × Int
  goal : Int × Int
  cells : List Nat
deriving DecidableEq, Repr

/-- the result of reading a map file -/
def navView (cells : List (Int × Int)) : Except FileErr (NavCfg × Text) → Option NavView
  | .ok (c, _) => some ⟨c.W, c.H, c.obs, c.start, c.goal, cells.map fun (p : Int × Int) => c.grid p.1 p.2⟩
  | .error _ => none

/-- **C148b** (violated: a file is read as the costs it contains, or rejected) A cost of 256 is accepted and read as 0, -1 as 255; a threshold of 256 is read as 0. -/
theorem nav2d_file_wraps :
    navView [(0, 0), (1, 0)] (readNav2D 8 "discretization(cells): 2 1 obsthresh: 256 start(cells): 0 0 end(cells): 1 0 environment: 256 -1".toList) =
      some ⟨2, 1, 0, (0, 0), (1, 0), [0, 255]⟩ := by decide +kernel

/-- **C148c** (violated: start and goal are the cells the file labels as such) The labels are not looked at: a file that gives the goal first is accepted, with start and
goal exchanged. -/
theorem nav2d_file_labels_ignored :
    navView [] (readNav2D 8 "discretization(cells): 2 1 obsthresh: 1 end(cells): 1 0 start(cells): 0 0 environment: 0 0".toList) =
      some ⟨2, 1, 1, (1, 0), (0, 0), []⟩ := by decide +kernel

end Sbpl.CfgFileProps
