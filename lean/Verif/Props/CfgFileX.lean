import Verif.Props.CfgFile
/-!
# Reading map files with headings (`EnvironmentNAVXYTHETALATTICE::ReadConfiguration`)
-/

namespace Sbpl.CfgFileXProps
open Sbpl Scan FileSpec GridSpec CfgFileProps

theorem toCell_floor {x cs : ℚ} (h0 : 0 ≤ x) (hc : 0 < cs) (hr : x / cs < 2147483648) (t : Text) : toCell x cs t = .ok (⌊x / cs⌋, t) := by
  have p : 0 ≤ x / cs := div_nonneg h0 hc.le
  have e : Utils.trunc (x / cs) = ⌊x / cs⌋ := by unfold Utils.trunc; rw [if_pos p]
  have a : 0 ≤ ⌊x / cs⌋ := Int.floor_nonneg.mpr p
  have b : ⌊x / cs⌋ < 2147483648 := Int.floor_lt.mpr (by simpa using hr)
  have e1 : toInt (x / cs) t = .ok (⌊x / cs⌋, t) := by
    unfold toInt; rw [e]; exact inInt_ok (by unfold IntRange; omega) t
  have e2 : toCell x cs = (do
    let v ← toInt (x / cs)
    if x ≥ 0 then pure v else inInt (v - 1) : Rd Int) := by unfold toCell; rw [if_neg hc.ne']
  rw [e2, bind_ok e1]
  have : (if x ≥ 0 then (pure ⌊x / cs⌋ : Rd Int) else inInt (⌊x / cs⌋ - 1)) = pure ⌊x / cs⌋ := if_pos h0
  rw [this]; rfl

/-- the words for the number of headings: none (16 headings), or `NumThetaDirs:` and the number -/
inductive Headings : List Word → Int → Prop
  | default : Headings [] 16
  | given {n : Word} {T : Int} : IsInt n T → IntRange T → n.length < 1024 → Headings ["NumThetaDirs:".toList, n] T

theorem headings_layout {th : List Word} {T : Int} {ws : List Word} {t : Text} (h : Headings th T) (L : Layout (th ++ "obsthresh:".toList :: ws) t) :
    ∃ t', headings t = .ok (T, t') ∧ Layout ws t' := by
  cases h with
  | default =>
    obtain ⟨t', e, L'⟩ := need_layout L (by decide)
    refine ⟨t', ?_, L'⟩
    unfold headings
    rw [bind_ok e]
    rfl
  | given h1 h2 h3 =>
    obtain ⟨t1, e1, L⟩ := need_layout L (by decide)
    obtain ⟨t2, e2, L⟩ := needInt_layout L h3 h1 h2
    obtain ⟨t3, e3, L⟩ := label_layout L (by decide)
    refine ⟨t3, ?_, L⟩
    unfold headings
    rw [bind_ok e1]
    show (do
      let T ← needInt
      label "obsthresh:"
      pure T : Rd Int) t1 = _
    rw [bind_ok e2, bind_ok e3]; rfl

section
variable {w h : Word} {th : List Word} {o i c cs vel tt l1 sx sy st l2 ex ey et l3 : Word} {W H : Nat} {T vo vi vc : Int} {qcs qv qt x0 y0 a0 x1 y1 a1 : ℚ}
variable {t : Text} {cells : List Word}

/-- the numbers of the file -/
structure XNumbers (w h : Word) (th : List Word) (o i c cs vel tt l1 sx sy st l2 ex ey et l3 : Word) (W H : Nat) (T vo vi vc : Int) (qcs qv qt x0 y0 a0 x1 y1 a1 : ℚ) : Prop where
  len : ∀ u ∈ [w, h, o, i, c, cs, vel, tt, l1, sx, sy, st, l2, ex, ey, et, l3], u.length < 1024
  hw : IsInt w W
  hh : IsInt h H
  hW : W ≤ 2147483647
  hH : H ≤ 2147483647
  hth : Headings th T
  ho : IsInt o vo
  ho' : IntRange vo
  hi : IsInt i vi
  hi' : IntRange vi
  hc : IsInt c vc
  hc' : IntRange vc
  hcs : IsDec cs qcs
  hcs' : 0 < qcs
  hv : IsDec vel qv
  ht : IsDec tt qt
  hx0 : IsDec sx x0
  hy0 : IsDec sy y0
  ha0 : IsDec st a0
  hx1 : IsDec ex x1
  hy1 : IsDec ey y1
  ha1 : IsDec et a1
  px0 : 0 ≤ x0
  py0 : 0 ≤ y0
  px1 : 0 ≤ x1
  py1 : 0 ≤ y1

theorem range_of_lt {x cs : ℚ} {W : Nat} (hW : W ≤ 2147483647) (h : ⌊x / cs⌋ < W) : x / cs < 2147483648 := by
  have := Int.floor_lt.mp h
  have : ((W : Int) : ℚ) ≤ 2147483647 := by exact_mod_cast hW
  linarith

theorem xyt_head (L : Layout (xytFile w h th o i c cs vel tt l1 sx sy st l2 ex ey et l3 cells) t)
    (N : XNumbers w h th o i c cs vel tt l1 sx sy st l2 ex ey et l3 W H T vo vi vc qcs qv qt x0 y0 a0 x1 y1 a1)
    (hs : InMap W H ⌊x0 / qcs⌋ ⌊y0 / qcs⌋) (he : InMap W H ⌊x1 / qcs⌋ ⌊y1 / qcs⌋) :
    ∃ t', Layout cells t' ∧ readXYT t = (do
      let g ← readCells (coords W H) (fun _ _ => 0)
      pure ⟨W, H, T, toUchar vo, toUchar vi, vc, qcs, qv, qt, (⌊x0 / qcs⌋, ⌊y0 / qcs⌋), a0, (⌊x1 / qcs⌋, ⌊y1 / qcs⌋), a1, g⟩ : Rd XFile) t' := by
  have hlen := N.len
  have hW := N.hW
  have hH := N.hH
  obtain ⟨t1, e1, L⟩ := label_layout L (by decide)
  obtain ⟨t2, e2, L⟩ := needInt_layout L (hlen _ (by simp)) N.hw (by unfold IntRange; omega)
  obtain ⟨t3, e3, L⟩ := needInt_layout L (hlen _ (by simp)) N.hh (by unfold IntRange; omega)
  change Layout ((th ++ _) ++ _) _ at L
  rw [List.append_assoc] at L
  obtain ⟨t4, e4, L⟩ := headings_layout N.hth L
  obtain ⟨t5, e5, L⟩ := needInt_layout L (hlen _ (by simp)) N.ho N.ho'
  obtain ⟨t6, e6, L⟩ := label_layout L (by decide)
  obtain ⟨t7, e7, L⟩ := needInt_layout L (hlen _ (by simp)) N.hi N.hi'
  obtain ⟨t8, e8, L⟩ := label_layout L (by decide)
  obtain ⟨t9, e9, L⟩ := needInt_layout L (hlen _ (by simp)) N.hc N.hc'
  obtain ⟨t10, e10, L⟩ := label_layout L (by decide)
  obtain ⟨t11, e11, L⟩ := needDec_layout L (hlen _ (by simp)) N.hcs
  obtain ⟨t12, e12, L⟩ := label_layout L (by decide)
  obtain ⟨t13, e13, L⟩ := needDec_layout L (hlen _ (by simp)) N.hv
  obtain ⟨t14, e14, L⟩ := label_layout L (by decide)
  obtain ⟨t15, e15, L⟩ := needDec_layout L (hlen _ (by simp)) N.ht
  obtain ⟨t16, e16, L⟩ := need_layout L (hlen _ (by simp))
  obtain ⟨t17, e17, L⟩ := needDec_layout L (hlen _ (by simp)) N.hx0
  have f17 := toCell_floor N.px0 N.hcs' (range_of_lt hW hs.2.1) t17
  obtain ⟨t18, e18, L⟩ := needDec_layout L (hlen _ (by simp)) N.hy0
  have f18 := toCell_floor N.py0 N.hcs' (range_of_lt hH hs.2.2.2) t18
  obtain ⟨t19, e19, L⟩ := needDec_layout L (hlen _ (by simp)) N.ha0
  obtain ⟨t20, e20, L⟩ := need_layout L (hlen _ (by simp))
  obtain ⟨t21, e21, L⟩ := needDec_layout L (hlen _ (by simp)) N.hx1
  have f21 := toCell_floor N.px1 N.hcs' (range_of_lt hW he.2.1) t21
  obtain ⟨t22, e22, L⟩ := needDec_layout L (hlen _ (by simp)) N.hy1
  have f22 := toCell_floor N.py1 N.hcs' (range_of_lt hH he.2.2.2) t22
  obtain ⟨t23, e23, L⟩ := needDec_layout L (hlen _ (by simp)) N.ha1
  obtain ⟨t24, e24, L⟩ := need_layout L (hlen _ (by simp))
  refine ⟨t24, L, ?_⟩
  unfold readXYT
  rw [bind_ok e1, bind_ok e2, bind_ok e3, bind_ok e4, bind_ok e5, bind_ok e6, bind_ok e7, bind_ok e8, bind_ok e9, bind_ok e10, bind_ok e11, bind_ok e12, bind_ok e13,
    bind_ok e14, bind_ok e15, bind_ok e16, bind_ok e17, bind_ok f17, bind_ok e18, bind_ok f18, bind_ok e19, bind_ok (inside_ok hs t19), bind_ok e20, bind_ok e21,
    bind_ok f21, bind_ok e22, bind_ok f22, bind_ok e23, bind_ok (inside_ok he t23), bind_ok e24]
  rfl

/-- **C149a** A map file with headings is read as the map it describes: sizes, number of headings (16 if not given), thresholds, cell size, speeds, start and goal (the cells
that contain the given points) and every cell (0..255). -/
theorem xyt_file_read {cell : Nat → Nat → Word} {val : Nat → Nat → Int} {extra : List Word}
    (L : Layout (xytFile w h th o i c cs vel tt l1 sx sy st l2 ex ey et l3 (rows W H cell ++ extra)) t)
    (N : XNumbers w h th o i c cs vel tt l1 sx sy st l2 ex ey et l3 W H T vo vi vc qcs qv qt x0 y0 a0 x1 y1 a1)
    (hs : InMap W H ⌊x0 / qcs⌋ ⌊y0 / qcs⌋) (he : InMap W H ⌊x1 / qcs⌋ ⌊y1 / qcs⌋)
    (hcell : ∀ x y, x < W → y < H → IsInt (cell x y) (val x y) ∧ IntRange (val x y)) :
    ∃ (f : XFile) (rest : Text), readXYT t = .ok (f, rest) ∧ f.W = W ∧ f.H = H ∧ f.T = T ∧ (f.obs : Int) = vo % 256 ∧ (f.inscr : Int) = vi % 256 ∧ f.circ = vc ∧
      f.cs = qcs ∧ f.vel = qv ∧ f.tt = qt ∧ f.start = (⌊x0 / qcs⌋, ⌊y0 / qcs⌋) ∧ f.startTheta = a0 ∧ f.goal = (⌊x1 / qcs⌋, ⌊y1 / qcs⌋) ∧ f.goalTheta = a1 ∧
      (∀ x y : Nat, x < W → y < H → (f.grid x y : Int) = val x y % 256) ∧
      (∀ x y : Nat, x < W → y < H → 0 ≤ val x y → val x y < 256 → (f.grid x y : Int) = val x y) := by
  obtain ⟨t', L', e⟩ := xyt_head L N hs he
  rw [rows_eq] at L'
  obtain ⟨g, t2, r1, r2, r3, r4⟩ := readCells_layout (cell := cell) (val := val) (coords W H) (fun _ _ => 0) t'
    (fun p hp => hcell p.1 p.2 (mem_coords.mp hp).1 (mem_coords.mp hp).2) L'
  rw [bind_ok r1] at e
  have key : ∀ x y : Nat, x < W → y < H → (g x y : Int) = val x y % 256 := by
    intro x y hx hy
    rw [r3 (x, y) (mem_coords.mpr ⟨hx, hy⟩)]
    show (toUchar (val x y) : Int) = _
    unfold toUchar; omega
  have uc : ∀ v : Int, (toUchar v : Int) = v % 256 := by intro v; unfold toUchar; omega
  refine ⟨_, _, e, rfl, rfl, rfl, uc _, uc _, rfl, rfl, rfl, rfl, rfl, rfl, rfl, rfl, key, ?_⟩
  intro x y hx hy v0 v1
  show (g x y : Int) = _
  rw [key x y hx hy]; omega

/-- **C149b** A missing cell raises an exception. -/
theorem xyt_file_cells_missing {cell : Nat → Nat → Word} {val : Nat → Nat → Int} {k : Nat} {bad : List Word}
    (L : Layout (xytFile w h th o i c cs vel tt l1 sx sy st l2 ex ey et l3 ((rows W H cell).take k ++ bad)) t)
    (N : XNumbers w h th o i c cs vel tt l1 sx sy st l2 ex ey et l3 W H T vo vi vc qcs qv qt x0 y0 a0 x1 y1 a1)
    (hs : InMap W H ⌊x0 / qcs⌋ ⌊y0 / qcs⌋) (he : InMap W H ⌊x1 / qcs⌋ ⌊y1 / qcs⌋)
    (hcell : ∀ x y, x < W → y < H → IsInt (cell x y) (val x y) ∧ IntRange (val x y)) (hk : k < (rows W H cell).length)
    (hbad : ∀ u, bad.head? = some u → NotInt u) :
    readXYT t = .error .thrown := by
  obtain ⟨t', L', e⟩ := xyt_head L N hs he
  rw [rows_eq, List.length_map] at hk
  rw [rows_eq, ← List.map_take] at L'
  have := readCells_bad (cell := cell) (val := val) hbad ((coords W H).take k) ((coords W H).drop k) (fun _ _ => 0) t'
    (fun p hp => hcell p.1 p.2 (mem_coords.mp (List.mem_of_mem_take hp)).1 (mem_coords.mp (List.mem_of_mem_take hp)).2)
    (by intro h; have := congrArg List.length h; rw [List.length_drop] at this; simp at this; omega) L'
  rw [List.take_append_drop] at this
  rw [e, bind_err this]

end

theorem headings_inv {ws : List Word} {t t' : Text} {T : Int} (L : Layout ws t) (h : headings t = .ok (T, t')) :
    ∃ th ws', ws = th ++ "obsthresh:".toList :: ws' ∧ (th = [] ∧ T = 16 ∨ ∃ n, th = ["NumThetaDirs:".toList, n]) ∧ Layout ws' t' := by
  unfold headings at h
  obtain ⟨w, t1, h1, h2⟩ := bind_inv h
  obtain ⟨ws1, e1, _, L1⟩ := need_inv L h1
  by_cases hw : w = "NumThetaDirs:".toList
  · subst hw
    change (do
      let T ← needInt
      label "obsthresh:"
      pure T : Rd Int) t1 = _ at h2
    obtain ⟨T', t2, e2, h2⟩ := bind_inv h2
    obtain ⟨n, ws2, f2, _, _, L2⟩ := needInt_inv L1 e2
    obtain ⟨_, t3, e3, h2⟩ := bind_inv h2
    obtain ⟨ws3, f3, L3⟩ := label_inv L2 e3
    cases h2
    exact ⟨["NumThetaDirs:".toList, n], ws3, by rw [e1, f2, f3]; rfl, .inr ⟨n, rfl⟩, L3⟩
  · by_cases hw' : w = "obsthresh:".toList
    · subst hw'
      cases h2
      exact ⟨[], ws1, by rw [e1]; rfl, .inl ⟨rfl, rfl⟩, L1⟩
    · have : (if w = "NumThetaDirs:".toList then (do
          let T ← needInt
          label "obsthresh:"
          pure T : Rd Int)
        else if w = "obsthresh:".toList then pure 16 else fail .thrown) = fail .thrown := by rw [if_neg hw, if_neg hw']
      rw [this] at h2; cases h2

theorem toCell_inv {x cs : ℚ} {v : Int} {t t' : Text} (h : toCell x cs t = .ok (v, t')) : t' = t ∧ cs ≠ 0 := by
  by_cases hc : cs = 0
  · have : toCell x cs = fail .ub := by unfold toCell; rw [if_pos hc]
    rw [this] at h; cases h
  · have e2 : toCell x cs = (do
      let v ← toInt (x / cs)
      if x ≥ 0 then pure v else inInt (v - 1) : Rd Int) := by unfold toCell; rw [if_neg hc]
    rw [e2] at h
    obtain ⟨u, t1, h1, h2⟩ := bind_inv h
    obtain ⟨_, e1, _⟩ := inInt_inv h1
    by_cases hx : x ≥ 0
    · have : (if x ≥ 0 then (pure u : Rd Int) else inInt (u - 1)) = pure u := if_pos hx
      rw [this] at h2; cases h2; exact ⟨e1, hc⟩
    · have : (if x ≥ 0 then (pure u : Rd Int) else inInt (u - 1)) = inInt (u - 1) := if_neg hx
      rw [this] at h2
      obtain ⟨_, e3, _⟩ := inInt_inv h2
      exact ⟨by rw [e3, e1], hc⟩

/-- **C149c** Whatever the file contains: if it is accepted, its words are those of a map file with headings (all labels except those of start, goal and map as they should be),
the map is not empty, start and goal are cells of the map, and costs and thresholds are at most 255. -/
theorem xyt_file_safe {t : Text} {f : XFile} {rest : Text} (e : readXYT t = .ok (f, rest)) :
    0 < f.W ∧ 0 < f.H ∧ InMap f.W f.H f.start.1 f.start.2 ∧ InMap f.W f.H f.goal.1 f.goal.2 ∧ f.obs < 256 ∧ f.inscr < 256 ∧ (∀ x y, f.grid x y < 256) ∧ f.cs ≠ 0 ∧
      ∃ w h th o i c cs vel tt l1 sx sy st l2 ex ey et l3 cells, Layout (xytFile w h th o i c cs vel tt l1 sx sy st l2 ex ey et l3 cells) t ∧
        (th = [] ∧ f.T = 16 ∨ ∃ n, th = ["NumThetaDirs:".toList, n]) := by
  obtain ⟨ws, L⟩ := layout_exists t
  have L0 := L
  unfold readXYT at e
  obtain ⟨_, t1, e1, e⟩ := bind_inv e
  obtain ⟨s1, w1, L⟩ := label_inv L e1
  obtain ⟨W, t2, e2, e⟩ := bind_inv e
  obtain ⟨u2, s2, w2, _, _, L⟩ := needInt_inv L e2
  obtain ⟨H, t3, e3, e⟩ := bind_inv e
  obtain ⟨u3, s3, w3, _, _, L⟩ := needInt_inv L e3
  obtain ⟨T, t4, e4, e⟩ := bind_inv e
  obtain ⟨u4, s4, w4, hth, L⟩ := headings_inv L e4
  obtain ⟨o, t5, e5, e⟩ := bind_inv e
  obtain ⟨u5, s5, w5, _, _, L⟩ := needInt_inv L e5
  obtain ⟨_, t6, e6, e⟩ := bind_inv e
  obtain ⟨s6, w6, L⟩ := label_inv L e6
  obtain ⟨i, t7, e7, e⟩ := bind_inv e
  obtain ⟨u7, s7, w7, _, _, L⟩ := needInt_inv L e7
  obtain ⟨_, t8, e8, e⟩ := bind_inv e
  obtain ⟨s8, w8, L⟩ := label_inv L e8
  obtain ⟨c, t9, e9, e⟩ := bind_inv e
  obtain ⟨u9, s9, w9, _, _, L⟩ := needInt_inv L e9
  obtain ⟨_, t10, e10, e⟩ := bind_inv e
  obtain ⟨s10, w10, L⟩ := label_inv L e10
  obtain ⟨cs, t11, e11, e⟩ := bind_inv e
  obtain ⟨u11, s11, w11, _, L⟩ := needDec_inv L e11
  obtain ⟨_, t12, e12, e⟩ := bind_inv e
  obtain ⟨s12, w12, L⟩ := label_inv L e12
  obtain ⟨vel, t13, e13, e⟩ := bind_inv e
  obtain ⟨u13, s13, w13, _, L⟩ := needDec_inv L e13
  obtain ⟨_, t14, e14, e⟩ := bind_inv e
  obtain ⟨s14, w14, L⟩ := label_inv L e14
  obtain ⟨tt, t15, e15, e⟩ := bind_inv e
  obtain ⟨u15, s15, w15, _, L⟩ := needDec_inv L e15
  obtain ⟨u16, t16, e16, e⟩ := bind_inv e
  obtain ⟨s16, w16, _, L⟩ := need_inv L e16
  obtain ⟨x0, t17, e17, e⟩ := bind_inv e
  obtain ⟨u17, s17, w17, _, L⟩ := needDec_inv L e17
  obtain ⟨sx, t17', f17, e⟩ := bind_inv e
  obtain ⟨f17, hcs⟩ := toCell_inv f17
  rw [f17] at e
  obtain ⟨y0, t18, e18, e⟩ := bind_inv e
  obtain ⟨u18, s18, w18, _, L⟩ := needDec_inv L e18
  obtain ⟨sy, t18', f18, e⟩ := bind_inv e
  obtain ⟨f18, _⟩ := toCell_inv f18
  rw [f18] at e
  obtain ⟨st, t19, e19, e⟩ := bind_inv e
  obtain ⟨u19, s19, w19, _, L⟩ := needDec_inv L e19
  obtain ⟨_, t20, e20, e⟩ := bind_inv e
  obtain ⟨m1, f20⟩ := inside_inv e20
  have f20 : t20 = t19 := f20
  rw [f20] at e
  obtain ⟨u21, t21, e21, e⟩ := bind_inv e
  obtain ⟨s21, w21, _, L⟩ := need_inv L e21
  obtain ⟨x1, t22, e22, e⟩ := bind_inv e
  obtain ⟨u22, s22, w22, _, L⟩ := needDec_inv L e22
  obtain ⟨ex, t22', f22, e⟩ := bind_inv e
  obtain ⟨f22, _⟩ := toCell_inv f22
  rw [f22] at e
  obtain ⟨y1, t23, e23, e⟩ := bind_inv e
  obtain ⟨u23, s23, w23, _, L⟩ := needDec_inv L e23
  obtain ⟨ey, t23', f23, e⟩ := bind_inv e
  obtain ⟨f23, _⟩ := toCell_inv f23
  rw [f23] at e
  obtain ⟨et, t24, e24, e⟩ := bind_inv e
  obtain ⟨u24, s24, w24, _, L⟩ := needDec_inv L e24
  obtain ⟨_, t25, e25, e⟩ := bind_inv e
  obtain ⟨m2, f25⟩ := inside_inv e25
  have f25 : t25 = t24 := f25
  rw [f25] at e
  obtain ⟨u26, t26, e26, e⟩ := bind_inv e
  obtain ⟨s26, w26, _, L⟩ := need_inv L e26
  obtain ⟨g, t27, e27, e⟩ := bind_inv e
  cases e
  have gl := readCells_lt _ _ _ (by intro a b; decide) e27
  have m1' := m1
  obtain ⟨i1, i2, i3, i4⟩ := m1'
  refine ⟨by show (0 : Int) < W; omega, by show (0 : Int) < H; omega, m1, m2, toUchar_lt _, toUchar_lt _, gl, hcs,
    u2, u3, u4, u5, u7, u9, u11, u13, u15, u16, u17, u18, u19, u21, u22, u23, u24, u26, s26, ?_, hth⟩
  have : xytFile u2 u3 u4 u5 u7 u9 u11 u13 u15 u16 u17 u18 u19 u21 u22 u23 u24 u26 s26 = ws := by
    rw [w1, w2, w3, w4, w5, w6, w7, w8, w9, w10, w11, w12, w13, w14, w15, w16, w17, w18, w19, w21, w22, w23, w24, w26]
    simp [xytFile]
  rw [this]; exact L0

/-- the result of reading a map file with headings -/
structure XView where
  W : Int
  H : Int
  T : Int
  obs : Nat
  inscr : Nat
  circ : Int
  cs : ℚ
  start : Int × Int
  goal : Int × Int
  cells : List Nat
deriving DecidableEq

/-- the same, on a few cells -/
def xView (cells : List (Int × Int)) : Except FileErr (XFile × Text) → Option XView
  | .ok (c, _) => some ⟨c.W, c.H, c.T, c.obs, c.inscr, c.circ, c.cs, c.start, c.goal, cells.map fun (p : Int × Int) => c.grid p.1 p.2⟩
  | .error _ => none

/-- a 2 × 1 map with cells of 25 mm, without the number of headings -/
def exText : String := "discretization(cells): 2 1
obsthresh: 254
cost_inscribed_thresh: 253
cost_possibly_circumscribed_thresh: 128
cellsize(meters): 0.025
nominalvel(mpersecs): 1.0
timetoturn45degsinplace(secs): 2.0
start(meters,rads): 0.01 0.0 0
end(meters,rads): 0.03 0.01 0
environment:
0 255
"

example : xView [(0, 0), (1, 0)] (readXYT exText.toList) = some ⟨2, 1, 16, 254, 253, 128, 1 / 40, (0, 0), (1, 0), [0, 255]⟩ := by decide +kernel

theorem half_dec : IsDec ['0', '.', '5'] (1 / 2) := by
  have := IsDec.plain (IsUDec.point (w := ['0']) (f := ['5']) (.inl (by decide)) (by unfold Digits; decide) (by unfold Digits; decide))
  have e : ((decVal ['0'] : ℚ) + decVal ['5'] / 10 ^ (['5'] : Word).length) = 1 / 2 := by
    have a : decVal ['0'] = 0 := by decide
    have b : decVal ['5'] = 5 := by decide
    rw [a, b]; norm_num
  rw [e] at this; exact this

theorem digit_dec {c : Char} {n : Nat} (h : Digits [c]) (hn : decVal [c] = n) : IsDec [c] n := by
  subst hn; exact .plain (.whole (by simp) h)

theorem digit_int {c : Char} {n : Nat} (h : Digits [c]) (hn : decVal [c] = n) : IsInt [c] n := by
  subst hn; exact .plain (by simp) h

/-- the hypotheses of `xyt_file_read` are met by a file for a 2 × 1 map -/
example : ∃ (f : XFile) (rest : Text), readXYT ((xytFile ['2'] ['1'] ["NumThetaDirs:".toList, ['8']] ['9'] ['8'] ['7'] ['0', '.', '5'] ['1'] ['2']
      ['a'] ['0', '.', '5'] ['0'] ['1'] ['b'] ['0'] ['0'] ['2'] ['c'] (rows 2 1 (fun _ _ => ['7']) ++ [])).flatMap (fun w => ' ' :: w)) = .ok (f, rest) ∧
    f.T = 8 ∧ f.cs = 1 / 2 ∧ f.start = (1, 0) ∧ f.goal = (0, 0) ∧ f.goalTheta = 2 := by
  have d0 : IsDec ['0'] ((0 : Nat) : ℚ) := digit_dec (by unfold Digits; decide) (by decide)
  have d1 : IsDec ['1'] ((1 : Nat) : ℚ) := digit_dec (by unfold Digits; decide) (by decide)
  have d2 : IsDec ['2'] ((2 : Nat) : ℚ) := digit_dec (by unfold Digits; decide) (by decide)
  have i1 : IsInt ['1'] ((1 : Nat) : Int) := digit_int (by unfold Digits; decide) (by decide)
  have i2 : IsInt ['2'] ((2 : Nat) : Int) := digit_int (by unfold Digits; decide) (by decide)
  have i7 : IsInt ['7'] ((7 : Nat) : Int) := digit_int (by unfold Digits; decide) (by decide)
  have i8 : IsInt ['8'] ((8 : Nat) : Int) := digit_int (by unfold Digits; decide) (by decide)
  have i9 : IsInt ['9'] ((9 : Nat) : Int) := digit_int (by unfold Digits; decide) (by decide)
  have f1 : ⌊(1 / 2 / (1 / 2) : ℚ)⌋ = 1 := by norm_num
  have f0 : ⌊(((0 : Nat) : ℚ) / (1 / 2) : ℚ)⌋ = 0 := by norm_num
  obtain ⟨f, rest, h1, h2, h3, h4, h5, h6, h7, h8, h9, h10, h11, h12, h13, h14, _⟩ := xyt_file_read (val := fun _ _ => 7) (cell := fun _ _ => ['7']) (extra := [])
    (layout_join (ws := xytFile ['2'] ['1'] ["NumThetaDirs:".toList, ['8']] ['9'] ['8'] ['7'] ['0', '.', '5'] ['1'] ['2']
      ['a'] ['0', '.', '5'] ['0'] ['1'] ['b'] ['0'] ['0'] ['2'] ['c'] (rows 2 1 (fun _ _ => ['7']) ++ [])) (by decide +kernel))
    (W := 2) (H := 1)
    ⟨by decide, i2, i1, by decide, by decide, .given i8 (by unfold IntRange; decide) (by decide), i9, by unfold IntRange; decide, i8, by unfold IntRange; decide, i7,
      by unfold IntRange; decide, half_dec, by norm_num, d1, d2, half_dec, d0, d1, d0, d0, d2, by norm_num, by norm_num, by norm_num, by norm_num⟩
    (by rw [f1, f0]; unfold InMap; decide) (by rw [f0]; unfold InMap; decide)
    (by intro x y _ _; exact ⟨i7, by unfold IntRange; decide⟩)
  rw [f1, f0] at h11
  rw [f0] at h13
  exact ⟨f, rest, h1, h4, h8, h11, h13, by rw [h14]; norm_num⟩

/-- **C150** (violated: only files that describe a usable environment are accepted) A negative cell size, zero headings, a negative threshold and a cost of 256 are accepted; the last
two are read as 255 and 0. -/
theorem xyt_file_nonsense_accepted :
    xView [(0, 0)] (readXYT "discretization(cells): 1 1 NumThetaDirs: 0 obsthresh: -1 cost_inscribed_thresh: 0 cost_possibly_circumscribed_thresh: 0 cellsize(meters): -1 nominalvel(mpersecs): 0 timetoturn45degsinplace(secs): 0 start(meters,rads): 0 0 0 end(meters,rads): 0 0 0 environment: 256".toList) =
      some ⟨1, 1, 0, 255, 0, 0, -1, (0, 0), (0, 0), [0]⟩ := by decide +kernel

end Sbpl.CfgFileXProps
