import Verif.Props.CfgFileX
import Verif.Props.Utils
import Verif.Props.Angles
/-!
# Reading files of motion primitives (`EnvironmentNAVXYTHETALATTICE::ReadMotionPrimitives`)
-/

namespace Sbpl.PrimFileProps
open Sbpl Scan FileSpec CfgFileProps UtilsProps AngleProps

theorem wordKeep_layout {w : Word} {ws : List Word} {t : Text} {size : Nat} (old : Option (List Char)) (h : Layout (w :: ws) t) (hs : w.length < size) :
    ∃ t', wordKeep size old t = .ok (some w, t') ∧ Layout ws t' := by
  obtain ⟨t', e, L, _⟩ := word_layout h hs
  exact ⟨t', by unfold wordKeep; rw [bind_ok e]; rfl, L⟩

theorem wordKeep_eof {t : Text} {size : Nat} (old : Option (List Char)) (h : Layout [] t) : wordKeep size old t = .ok (old, []) := by
  unfold wordKeep; rw [bind_ok (word_eof h)]; rfl

theorem contents_some (w : List Char) (t : Text) : contents (some w) t = .ok (w, t) := rfl

theorem isLabel_some (w : List Char) (s : String) (t : Text) : isLabel (some w) s t = .ok (decide (w = s.toList), t) := rfl

section
variable {ws : List Word} {t : Text} {T : Nat}

theorem readCell_layout {x y th : Word} {a b e : Int} (L : Layout (x :: y :: th :: ws) t) (hx : x.length < 60) (hy : y.length < 60) (ht : th.length < 60)
    (ix : IsInt x a) (iy : IsInt y b) (ie : IsInt th e) (ra : IntRange a) (rb : IntRange b) (re : IntRange e) :
    ∃ t', readCell T t = .ok ((a, b, Utils.normDiscTheta e T), t') ∧ Layout ws t' := by
  obtain ⟨t1, e1, L⟩ := wordKeep_layout none L hx
  obtain ⟨t2, e2, L⟩ := wordKeep_layout (some x) L hy
  obtain ⟨t3, e3, L⟩ := wordKeep_layout (some y) L ht
  refine ⟨t3, ?_, L⟩
  unfold readCell
  rw [bind_ok e1, bind_ok (contents_some _ _), bind_ok (atoi_int ix ra _), bind_ok e2, bind_ok (contents_some _ _), bind_ok (atoi_int iy rb _), bind_ok e3,
    bind_ok (contents_some _ _), bind_ok (atoi_int ie re _)]
  rfl

theorem readPose_layout {x y th : Word} {a b e : ℚ} (L : Layout (x :: y :: th :: ws) t) (hx : x.length < 60) (hy : y.length < 60) (ht : th.length < 60)
    (ix : IsDec x a) (iy : IsDec y b) (ie : IsDec th e) :
    ∃ t', readPose t = .ok ((a, b, Utils.normalizeAngle e), t') ∧ Layout ws t' := by
  obtain ⟨t1, e1, L⟩ := wordKeep_layout none L hx
  obtain ⟨t2, e2, L⟩ := wordKeep_layout (some x) L hy
  obtain ⟨t3, e3, L⟩ := wordKeep_layout (some y) L ht
  refine ⟨t3, ?_, L⟩
  unfold readPose
  rw [bind_ok e1, bind_ok (contents_some _ _), bind_ok (atof_dec ix _), bind_ok e2, bind_ok (contents_some _ _), bind_ok (atof_dec iy _), bind_ok e3,
    bind_ok (contents_some _ _), bind_ok (atof_dec ie _)]
  rfl

/-- the words of a pose denote it; the angle is reduced to [0, 2π] -/
def PoseDenotes (w : Word × Word × Word) (v : ℚ × ℚ × ℚ) : Prop :=
  IsDec w.1 v.1 ∧ IsDec w.2.1 v.2.1 ∧ (∃ e, IsDec w.2.2 e ∧ v.2.2 = Utils.normalizeAngle e) ∧ w.1.length < 60 ∧ w.2.1.length < 60 ∧ w.2.2.length < 60

theorem readPoses_layout : ∀ {ps : List (Word × Word × Word)} {vs : List (ℚ × ℚ × ℚ)} {t : Text}, List.Forall₂ PoseDenotes ps vs →
    Layout (ps.flatMap (fun p => [p.1, p.2.1, p.2.2]) ++ ws) t → ∃ t', readPoses ps.length t = .ok (vs, t') ∧ Layout ws t' := by
  intro ps
  induction ps with
  | nil => intro vs t h L; cases h; exact ⟨t, rfl, L⟩
  | cons p ps ih =>
    intro vs t h L
    cases h with
    | @cons _ v _ vs hp hps =>
      obtain ⟨d1, d2, ⟨e, d3, d4⟩, l1, l2, l3⟩ := hp
      obtain ⟨t1, e1, L⟩ := readPose_layout (x := p.1) (y := p.2.1) (th := p.2.2) L l1 l2 l3 d1 d2 d3
      obtain ⟨t2, e2, L⟩ := ih hps L
      refine ⟨t2, ?_, L⟩
      rw [List.length_cons, readPoses, bind_ok e1, bind_ok e2, ← d4]
      rfl

/-- the words of a primitive -/
structure PrimText where
  id : Word
  st : Word
  x : Word
  y : Word
  th : Word
  m : Word
  n : Word
  poses : List (Word × Word × Word)

def PrimText.words (p : PrimText) : List Word := primWords p.id p.st p.x p.y p.th p.m p.n p.poses

/-- the words of a primitive denote it: the heading at the end is reduced modulo the number of headings, the angles of the poses to [0, 2π] -/
structure Denotes (T : Nat) (p : PrimText) (id : Int) (r : RawPrim) : Prop where
  hid : IsInt p.id id
  hid' : IntRange id
  st : IsInt p.st r.startTheta
  st' : IntRange r.startTheta
  x : IsInt p.x r.dX
  x' : IntRange r.dX
  y : IsInt p.y r.dY
  y' : IntRange r.dY
  th : ∃ e : Int, IsInt p.th e ∧ IntRange e ∧ r.endTheta = Utils.normDiscTheta e T
  m : IsInt p.m r.mult
  m' : r.mult ≤ 2147483647
  n : IsInt p.n p.poses.length
  n' : p.poses.length ≤ 2147483647
  poses : List.Forall₂ PoseDenotes p.poses r.pts
  lx : p.x.length < 60
  ly : p.y.length < 60
  lth : p.th.length < 60

theorem scanKeep_layout {w : Word} {v : Int} (old : Option Int) (L : Layout (w :: ws) t) (hi : IsInt w v) (hv : IntRange v) :
    ∃ t', scanKeep old t = .ok (some v, t') ∧ Layout ws t' := by
  obtain ⟨t', e, L, _⟩ := scanD_layout L hi hv
  exact ⟨t', by unfold scanKeep; rw [bind_ok e]; rfl, L⟩

/-- a word that is the expected label -/
theorem lab {s : String} (old : Option (List Char)) (L : Layout (s.toList :: ws) t) (hs : s.toList.length < 1024) :
    ∃ t', wordKeep 1024 old t = .ok (some s.toList, t') ∧ isLabel (some s.toList) s t' = .ok (true, t') ∧ Layout ws t' := by
  obtain ⟨t', e, L⟩ := wordKeep_layout old L hs
  exact ⟨t', e, by rw [isLabel_some]; simp, L⟩

theorem readPrim_layout {cs : ℚ} {p : PrimText} {id : Int} {r : RawPrim} (D : Denotes T p id r) (L : Layout (p.words ++ ws) t) :
    (XPrim.checkEnd cs T r = .ok true → ∃ t', readPrim cs T t = .ok (some (id, r), t') ∧ Layout ws t') ∧
    (XPrim.checkEnd cs T r = .ok false → ∃ t', readPrim cs T t = .ok (none, t')) := by
  obtain ⟨e, te, te', hte⟩ := D.th
  obtain ⟨t1, e1, f1, L⟩ := lab (s := "primID:") none L (by decide)
  obtain ⟨t2, e2, L, _⟩ := scanD_layout L D.hid D.hid'
  obtain ⟨t3, e3, f3, L⟩ := lab (s := "startangle_c:") (some "primID:".toList) L (by decide)
  obtain ⟨t4, e4, L⟩ := scanKeep_layout none L D.st D.st'
  obtain ⟨t5, e5, f5, L⟩ := lab (s := "endpose_c:") (some "startangle_c:".toList) L (by decide)
  obtain ⟨t6, e6, L⟩ := readCell_layout (T := T) L D.lx D.ly D.lth D.x D.y te D.x' D.y' te'
  obtain ⟨t7, e7, f7, L⟩ := lab (s := "additionalactioncostmult:") (some "endpose_c:".toList) L (by decide)
  obtain ⟨t8, e8, L, _⟩ := scanD_layout L D.m (by have := D.m'; unfold IntRange; omega)
  obtain ⟨t9, e9, f9, L⟩ := lab (s := "intermediateposes:") (some "additionalactioncostmult:".toList) L (by decide)
  obtain ⟨t10, e10, L, _⟩ := scanD_layout L D.n (by have := D.n'; unfold IntRange; omega)
  obtain ⟨t11, e11, L⟩ := readPoses_layout D.poses L
  have key : readPrim cs T t = (match XPrim.checkEnd cs T r with
    | .error _ => fail .ub
    | .ok ok => if ok then pure (some (id, r)) else pure none : Rd (Option (Int × RawPrim))) t11 := by
    unfold readPrim
    rw [bind_ok e1, bind_ok f1]
    simp only [Bool.not_true, Bool.false_eq_true, if_false]
    rw [bind_ok e2]
    simp only
    rw [bind_ok e3, bind_ok f3]
    simp only [Bool.not_true, Bool.false_eq_true, if_false]
    rw [bind_ok e4]
    simp only
    rw [bind_ok e5, bind_ok f5]
    simp only [Bool.not_true, Bool.false_eq_true, if_false]
    rw [bind_ok e6, bind_ok e7, bind_ok f7]
    simp only [Bool.not_true, Bool.false_eq_true, if_false]
    rw [bind_ok e8]
    simp only
    rw [bind_ok e9, bind_ok f9]
    simp only [Bool.not_true, Bool.false_eq_true, if_false]
    rw [bind_ok e10]
    simp only [Int.toNat_natCast]
    rw [bind_ok e11]
    rw [if_neg (by omega)]
    rw [← hte]
    rfl
  refine ⟨?_, ?_⟩
  · intro hc
    refine ⟨t11, ?_, L⟩
    rw [key, hc]; rfl
  · intro hc
    refine ⟨t11, ?_⟩
    rw [key, hc]; rfl

theorem readPrimList_layout {cs : ℚ} : ∀ {ps : List PrimText} {vs : List (Int × RawPrim)} {t : Text},
    List.Forall₂ (fun (p : PrimText) (v : Int × RawPrim) => Denotes T p v.1 v.2 ∧ XPrim.checkEnd cs T v.2 = .ok true) ps vs → Layout (ps.flatMap PrimText.words ++ ws) t →
    ∃ t', readPrimList cs T ps.length t = .ok (some vs, t') ∧ Layout ws t' := by
  intro ps
  induction ps with
  | nil => intro vs t h L; cases h; exact ⟨t, rfl, L⟩
  | cons p ps ih =>
    intro vs t h L
    cases h with
    | @cons _ v _ vs hp hps =>
      rw [List.flatMap_cons, List.append_assoc] at L
      obtain ⟨t1, e1, L⟩ := (readPrim_layout (cs := cs) hp.1 L).1 hp.2
      obtain ⟨t2, e2, L⟩ := ih hps L
      refine ⟨t2, ?_, L⟩
      rw [List.length_cons, readPrimList, bind_ok e1]
      simp only
      rw [bind_ok e2]
      rfl

theorem readPrimList_bad {cs : ℚ} {p : PrimText} {id : Int} {r : RawPrim} (D : Denotes T p id r) (hc : XPrim.checkEnd cs T r = .ok false) :
    ∀ {ps : List PrimText} {vs : List (Int × RawPrim)} {t : Text} (k : Nat),
    List.Forall₂ (fun (p : PrimText) (v : Int × RawPrim) => Denotes T p v.1 v.2 ∧ XPrim.checkEnd cs T v.2 = .ok true) ps vs →
    Layout (ps.flatMap PrimText.words ++ (p.words ++ ws)) t →
    ∃ t', readPrimList cs T (ps.length + 1 + k) t = .ok (none, t') := by
  intro ps
  induction ps with
  | nil =>
    intro vs t k h L
    obtain ⟨t1, e1⟩ := (readPrim_layout (cs := cs) D L).2 hc
    refine ⟨t1, ?_⟩
    show readPrimList cs T (0 + 1 + k) t = _
    rw [show 0 + 1 + k = k + 1 by omega, readPrimList, bind_ok e1]; rfl
  | cons p ps ih =>
    intro vs t k h L
    cases h with
    | @cons _ v _ vs hp hps =>
      rw [List.flatMap_cons, List.append_assoc] at L
      obtain ⟨t1, e1, L⟩ := (readPrim_layout (cs := cs) hp.1 L).1 hp.2
      obtain ⟨t2, e2⟩ := ih k hps L
      refine ⟨t2, ?_⟩
      rw [List.length_cons, show ps.length + 1 + 1 + k = (ps.length + 1 + k) + 1 by omega, readPrimList, bind_ok e1]
      simp only
      rw [bind_ok e2]
      rfl

theorem prims_head {cs : ℚ} {cw tw nw : Word} {more : List Word} {f : ℚ} {n : Nat} (L : Layout (primFile cw tw nw more) t) (hc : IsDec cw f) (hf : |f - cs| ≤ 1 / 10000000)
    (ht : IsInt tw T) (hT : T ≤ 2147483647) (hn : IsInt nw n) (hN : n ≤ 2147483647) : ∃ t', Layout more t' ∧ readPrims cs T t = readPrimList cs T n t' := by
  obtain ⟨t1, e1, f1, L⟩ := lab (s := "resolution_m:") none L (by decide)
  obtain ⟨t2, e2, L⟩ := scanF_layout L hc
  obtain ⟨t3, e3, f3, L⟩ := lab (s := "numberofangles:") (some "resolution_m:".toList) L (by decide)
  obtain ⟨t4, e4, L⟩ := scanKeep_layout none L ht (by unfold IntRange; omega)
  obtain ⟨t5, e5, f5, L⟩ := lab (s := "totalnumberofprimitives:") (some "numberofangles:".toList) L (by decide)
  obtain ⟨t6, e6, L⟩ := scanKeep_layout (some 0) L hn (by unfold IntRange; omega)
  refine ⟨t6, L, ?_⟩
  unfold readPrims
  rw [bind_ok e1, bind_ok f1]
  simp only [Bool.not_true, Bool.false_eq_true, if_false]
  rw [bind_ok e2]
  simp only
  rw [if_neg (not_lt.mpr hf), bind_ok e3, bind_ok (contents_some _ _), if_neg (by decide), bind_ok f3]
  simp only [Bool.not_true, Bool.false_eq_true, if_false]
  rw [bind_ok e4]
  simp only [ne_eq, not_true_eq_false, if_false]
  rw [bind_ok e5, bind_ok f5]
  simp only [Bool.not_true, Bool.false_eq_true, if_false]
  rw [bind_ok e6]
  simp only [Int.toNat_natCast]

/-- **C151a** A file of motion primitives for the cell size and the number of headings of the environment, every primitive of which ends (its last pose) in the cell and heading it
gives, is read as the primitives it describes, in order; anything after them is ignored. -/
theorem prim_file_read {cs : ℚ} {cw tw nw : Word} {extra : List Word} {f : ℚ} {ps : List PrimText} {vs : List (Int × RawPrim)}
    (L : Layout (primFile cw tw nw (ps.flatMap PrimText.words ++ extra)) t) (hc : IsDec cw f) (hf : |f - cs| ≤ 1 / 10000000)
    (ht : IsInt tw T) (hT : T ≤ 2147483647) (hn : IsInt nw ps.length) (hN : ps.length ≤ 2147483647)
    (hp : List.Forall₂ (fun (p : PrimText) (v : Int × RawPrim) => Denotes T p v.1 v.2 ∧ XPrim.checkEnd cs T v.2 = .ok true) ps vs) :
    ∃ rest, readPrims cs T t = .ok (some vs, rest) ∧ Layout extra rest := by
  obtain ⟨t', L', e⟩ := prims_head L hc hf ht hT hn hN
  rw [e]
  exact readPrimList_layout hp L'

/-- **C151b** If a primitive of the file does not end in the cell and heading it gives, reading fails. -/
theorem prim_file_bad_end {cs : ℚ} {cw tw nw : Word} {f : ℚ} {ps : List PrimText} {vs : List (Int × RawPrim)} {p : PrimText} {id : Int} {r : RawPrim} {more : List Word} {n : Nat}
    (L : Layout (primFile cw tw nw (ps.flatMap PrimText.words ++ (p.words ++ more))) t) (hc : IsDec cw f) (hf : |f - cs| ≤ 1 / 10000000)
    (ht : IsInt tw T) (hT : T ≤ 2147483647) (hn : IsInt nw n) (hN : n ≤ 2147483647) (hlt : ps.length < n)
    (hp : List.Forall₂ (fun (p : PrimText) (v : Int × RawPrim) => Denotes T p v.1 v.2 ∧ XPrim.checkEnd cs T v.2 = .ok true) ps vs)
    (D : Denotes T p id r) (hbad : XPrim.checkEnd cs T r = .ok false) :
    ∃ rest, readPrims cs T t = .ok (none, rest) := by
  obtain ⟨t', L', e⟩ := prims_head L hc hf ht hT hn hN
  rw [e, show n = ps.length + 1 + (n - (ps.length + 1)) by omega]
  exact readPrimList_bad D hbad _ hp L'

/-- **C151c** A file for another cell size (the difference is more than 1e-7) or another number of headings is rejected. -/
theorem prim_file_wrong_grid {cs : ℚ} {cw tw : Word} {more : List Word} {f : ℚ} {T' : Int} (L : Layout (["resolution_m:".toList, cw, "numberofangles:".toList, tw] ++ more) t)
    (hc : IsDec cw f) (ht : IsInt tw T') (hT : IntRange T') (h : |f - cs| > 1 / 10000000 ∨ T' ≠ T) :
    ∃ rest, readPrims cs T t = .ok (none, rest) := by
  obtain ⟨t1, e1, f1, L⟩ := lab (s := "resolution_m:") none L (by decide)
  obtain ⟨t2, e2, L⟩ := scanF_layout L hc
  obtain ⟨t3, e3, f3, L⟩ := lab (s := "numberofangles:") (some "resolution_m:".toList) L (by decide)
  obtain ⟨t4, e4, L⟩ := scanKeep_layout none L ht hT
  unfold readPrims
  rw [bind_ok e1, bind_ok f1]
  simp only [Bool.not_true, Bool.false_eq_true, if_false]
  rw [bind_ok e2]
  simp only
  by_cases hf : |f - cs| > 1 / 10000000
  · rw [if_pos hf]; exact ⟨_, rfl⟩
  · have hT' : T' ≠ T := h.resolve_left hf
    rw [if_neg hf, bind_ok e3, bind_ok (contents_some _ _), if_neg (by decide), bind_ok f3]
    simp only [Bool.not_true, Bool.false_eq_true, if_false]
    rw [bind_ok e4]
    simp only
    rw [if_pos hT']
    exact ⟨_, rfl⟩

/-- **C152a** (violated: a truncated file is rejected) A file that ends before the number of primitives is accepted, with no primitives. -/
theorem prim_file_truncated {cs : ℚ} {cw tw : Word} {f : ℚ} (L : Layout ["resolution_m:".toList, cw, "numberofangles:".toList, tw, "totalnumberofprimitives:".toList] t)
    (hc : IsDec cw f) (hf : |f - cs| ≤ 1 / 10000000) (ht : IsInt tw T) (hT : T ≤ 2147483647) : readPrims cs T t = .ok (some [], []) := by
  obtain ⟨t1, e1, f1, L⟩ := lab (s := "resolution_m:") none L (by decide)
  obtain ⟨t2, e2, L⟩ := scanF_layout L hc
  obtain ⟨t3, e3, f3, L⟩ := lab (s := "numberofangles:") (some "resolution_m:".toList) L (by decide)
  obtain ⟨t4, e4, L⟩ := scanKeep_layout none L ht (by unfold IntRange; omega)
  obtain ⟨t5, e5, f5, L⟩ := lab (s := "totalnumberofprimitives:") (some "numberofangles:".toList) L (by decide)
  have e6 : scanKeep (some 0) t5 = .ok (some 0, []) := by unfold scanKeep; rw [bind_ok (scanD_eof L)]; rfl
  unfold readPrims
  rw [bind_ok e1, bind_ok f1]
  simp only [Bool.not_true, Bool.false_eq_true, if_false]
  rw [bind_ok e2]
  simp only
  rw [if_neg (not_lt.mpr hf), bind_ok e3, bind_ok (contents_some _ _), if_neg (by decide), bind_ok f3]
  simp only [Bool.not_true, Bool.false_eq_true, if_false]
  rw [bind_ok e4]
  simp only [ne_eq, not_true_eq_false, if_false]
  rw [bind_ok e5, bind_ok f5]
  simp only [Bool.not_true, Bool.false_eq_true, if_false]
  rw [bind_ok e6]
  rfl

end

/-! ### whatever the file contains -/

theorem ite_inv {α : Type} {p : Prop} [Decidable p] {a b : Rd α} {t : Text} {r : α × Text} (h : (if p then a else b) t = .ok r) : p ∧ a t = .ok r ∨ ¬ p ∧ b t = .ok r := by
  by_cases hp : p
  · rw [if_pos hp] at h; exact .inl ⟨hp, h⟩
  · rw [if_neg hp] at h; exact .inr ⟨hp, h⟩

theorem none_ne {α : Type} {v : α} {t : Text} {rest : Text} (h : (pure none : Rd (Option α)) t = .ok (some v, rest)) : False := by cases h

theorem readPrim_safe {cs : ℚ} {T : Nat} {t rest : Text} {id : Int} {r : RawPrim} (h : readPrim cs T t = .ok (some (id, r), rest)) :
    XPrim.checkEnd cs T r = .ok true ∧ ∃ e : Int, r.endTheta = Utils.normDiscTheta e T := by
  unfold readPrim at h
  obtain ⟨b, t1, -, h⟩ := bind_inv h
  obtain ⟨c, t2, -, h⟩ := bind_inv h
  rcases ite_inv h with ⟨-, h⟩ | ⟨-, h⟩
  · exact (none_ne h).elim
  obtain ⟨v, t3, -, h⟩ := bind_inv h
  rcases v with _ | _ | v
  · exact (none_ne h).elim
  · exact (none_ne h).elim
  simp only at h
  obtain ⟨b, t1, -, h⟩ := bind_inv h
  obtain ⟨c, t2, -, h⟩ := bind_inv h
  rcases ite_inv h with ⟨-, h⟩ | ⟨-, h⟩
  · exact (none_ne h).elim
  obtain ⟨st, t3, -, h⟩ := bind_inv h
  rcases st with _ | st
  · exact (none_ne h).elim
  simp only at h
  obtain ⟨b, t1, -, h⟩ := bind_inv h
  obtain ⟨c, t2, -, h⟩ := bind_inv h
  rcases ite_inv h with ⟨-, h⟩ | ⟨-, h⟩
  · exact (none_ne h).elim
  obtain ⟨e, t3, he, h⟩ := bind_inv h
  have hte : ∃ z : Int, e.2.2 = Utils.normDiscTheta z T := by
    unfold readCell at he
    obtain ⟨_, _, -, he⟩ := bind_inv he
    obtain ⟨_, _, -, he⟩ := bind_inv he
    obtain ⟨_, _, -, he⟩ := bind_inv he
    obtain ⟨_, _, -, he⟩ := bind_inv he
    obtain ⟨_, _, -, he⟩ := bind_inv he
    obtain ⟨_, _, -, he⟩ := bind_inv he
    obtain ⟨_, _, -, he⟩ := bind_inv he
    obtain ⟨_, _, -, he⟩ := bind_inv he
    obtain ⟨z, _, -, he⟩ := bind_inv he
    cases he
    exact ⟨z, rfl⟩
  obtain ⟨b, t1, -, h⟩ := bind_inv h
  obtain ⟨c, t2, -, h⟩ := bind_inv h
  rcases ite_inv h with ⟨-, h⟩ | ⟨-, h⟩
  · exact (none_ne h).elim
  obtain ⟨m, t3, -, h⟩ := bind_inv h
  rcases m with _ | _ | m
  · exact (none_ne h).elim
  · exact (none_ne h).elim
  simp only at h
  obtain ⟨b, t1, -, h⟩ := bind_inv h
  obtain ⟨c, t2, -, h⟩ := bind_inv h
  rcases ite_inv h with ⟨-, h⟩ | ⟨-, h⟩
  · exact (none_ne h).elim
  obtain ⟨n, t3, -, h⟩ := bind_inv h
  rcases n with _ | _ | n
  · exact (none_ne h).elim
  · exact (none_ne h).elim
  simp only at h
  obtain ⟨pts, t3, -, h⟩ := bind_inv h
  rcases ite_inv h with ⟨-, h⟩ | ⟨-, h⟩
  · cases h
  generalize hr : (⟨st, e.1, e.2.1, e.2.2, m.toNat, pts⟩ : RawPrim) = r' at h
  cases hc : XPrim.checkEnd cs T r' with
  | error x => rw [hc] at h; cases h
  | ok ok =>
    rw [hc] at h
    cases ok with
    | false => exact (none_ne h).elim
    | true =>
      cases h
      refine ⟨hc, ?_⟩
      rw [← hr]; exact hte

theorem readPrimList_safe {cs : ℚ} {T : Nat} : ∀ {n : Nat} {t rest : Text} {l : List (Int × RawPrim)}, readPrimList cs T n t = .ok (some l, rest) →
    l.length = n ∧ ∀ p ∈ l, XPrim.checkEnd cs T p.2 = .ok true ∧ ∃ e : Int, p.2.endTheta = Utils.normDiscTheta e T := by
  intro n
  induction n with
  | zero => intro t rest l h; cases h; simp
  | succ n ih =>
    intro t rest l h
    rw [readPrimList] at h
    obtain ⟨p, t1, h1, h⟩ := bind_inv h
    rcases p with _ | p
    · exact (none_ne h).elim
    simp only at h
    obtain ⟨l', t2, h2, h⟩ := bind_inv h
    rcases l' with _ | l'
    · exact (none_ne h).elim
    cases h
    obtain ⟨a, b⟩ := ih h2
    refine ⟨by simp [a], ?_⟩
    intro q hq
    rcases List.mem_cons.mp hq with rfl | hq
    · exact readPrim_safe h1
    · exact b q hq

/-- **C151d** Whatever the file contains: every primitive accepted has at least one pose, its last pose lies in the cell it gives as its end, and its last angle in the heading it gives,
which is between 0 and the number of headings. -/
theorem prim_file_safe {cs : ℚ} {T : Nat} {t rest : Text} {l : List (Int × RawPrim)} (hT : 0 < T) (h : readPrims cs T t = .ok (some l, rest)) :
    ∀ p ∈ l, ∃ e, p.2.pts.getLast? = some e ∧ Utils.contXY2Disc (cs / 2 + e.1) cs = p.2.dX ∧ Utils.contXY2Disc (cs / 2 + e.2.1) cs = p.2.dY ∧
      Utils.contTheta2Disc e.2.2 T = p.2.endTheta ∧ 0 ≤ p.2.endTheta ∧ p.2.endTheta < T := by
  unfold readPrims at h
  obtain ⟨b, t1, -, h⟩ := bind_inv h
  obtain ⟨c, t2, -, h⟩ := bind_inv h
  rcases ite_inv h with ⟨-, h⟩ | ⟨-, h⟩
  · exact (none_ne h).elim
  obtain ⟨v, t3, -, h⟩ := bind_inv h
  rcases v with _ | _ | f
  · cases h
  · exact (none_ne h).elim
  simp only at h
  rcases ite_inv h with ⟨-, h⟩ | ⟨-, h⟩
  · exact (none_ne h).elim
  obtain ⟨b, t1, -, h⟩ := bind_inv h
  obtain ⟨w, t1, -, h⟩ := bind_inv h
  rcases ite_inv h with ⟨-, h⟩ | ⟨-, h⟩
  · cases h
  obtain ⟨c, t2, -, h⟩ := bind_inv h
  rcases ite_inv h with ⟨-, h⟩ | ⟨-, h⟩
  · exact (none_ne h).elim
  obtain ⟨d, t3, -, h⟩ := bind_inv h
  rcases d with _ | d
  · exact (none_ne h).elim
  simp only at h
  rcases ite_inv h with ⟨-, h⟩ | ⟨-, h⟩
  · exact (none_ne h).elim
  obtain ⟨b, t1, -, h⟩ := bind_inv h
  obtain ⟨c, t2, -, h⟩ := bind_inv h
  rcases ite_inv h with ⟨-, h⟩ | ⟨-, h⟩
  · exact (none_ne h).elim
  obtain ⟨n, t3, -, h⟩ := bind_inv h
  rcases n with _ | n
  · exact (none_ne h).elim
  simp only at h
  intro p hp
  obtain ⟨hc, e, he⟩ := (readPrimList_safe h).2 p hp
  unfold XPrim.checkEnd at hc
  split at hc
  · cases hc
  · next q hq =>
    have hc := of_decide_eq_true (Except.ok.inj hc)
    have z : Utils.discXY2Cont 0 cs = cs / 2 := by simp [Utils.discXY2Cont]
    rw [z] at hc
    have res := normDiscTheta_residue e (n := (T : Int)) (by omega)
    rw [← he] at res
    exact ⟨q, hq, hc.1, hc.2.1, hc.2.2, res.1, res.2.1⟩

end Sbpl.PrimFileProps
