import Verif.Props.XYTAngles
import Verif.Props.PrimFile
/-!
# Reading files of motion primitives with a list of headings
-/

namespace Sbpl.XAngProps
open Sbpl Scan FileSpec CfgFileProps PrimFileProps XSpec XAngSpec XYTPrimProps UtilsProps

section
variable {ws : List Word} {t : Text} {T : Nat}

theorem label_length {i : Nat} (h : i ≤ 2147483647) : (angleLabel i).toList.length < 1024 := by
  unfold angleLabel
  rw [String.toList_append, List.length_append]
  have h1 : (toString i).toList.length ≤ 10 := by
    have h3 : (toString i).toList = Nat.toDigits 10 i := by simp
    rw [h3]
    exact (Nat.length_toDigits_le_iff (by decide) (by decide)).mpr (by omega)
  have h2 : ("angle:".toList).length = 6 := by decide
  omega

theorem readCellSet_layout {x y th : Word} {a b e : Int} (L : Layout (x :: y :: th :: ws) t) (hx : x.length < 60) (hy : y.length < 60) (ht : th.length < 60)
    (ix : IsInt x a) (iy : IsInt y b) (ie : IsInt th e) (ra : IntRange a) (rb : IntRange b) (re : IntRange e) :
    ∃ t', readCellSet T t = .ok ((a, b, XPrim.normSet T e), t') ∧ Layout ws t' := by
  obtain ⟨t1, e1, L⟩ := wordKeep_layout none L hx
  obtain ⟨t2, e2, L⟩ := wordKeep_layout (some x) L hy
  obtain ⟨t3, e3, L⟩ := wordKeep_layout (some y) L ht
  refine ⟨t3, ?_, L⟩
  unfold readCellSet
  rw [bind_ok e1, bind_ok (contents_some _ _), bind_ok (atoi_int ix ra _), bind_ok e2, bind_ok (contents_some _ _), bind_ok (atoi_int iy rb _), bind_ok e3,
    bind_ok (contents_some _ _), bind_ok (atoi_int ie re _)]
  rfl

/-- the words of a primitive with a turning radius -/
structure PrimSetText where
  base : PrimText
  rad : Word

def PrimSetText.words (p : PrimSetText) : List Word := primSetWords p.base.id p.base.st p.base.x p.base.y p.base.th p.base.m p.rad p.base.n p.base.poses

/-- the words denote the primitive: the turning radius is any number, the heading at the end is that of the file or one turn more or less -/
structure DenotesSet (T : Nat) (p : PrimSetText) (id : Int) (r : RawPrim) : Prop where
  hid : IsInt p.base.id id
  hid' : IntRange id
  st : IsInt p.base.st r.startTheta
  st' : IntRange r.startTheta
  x : IsInt p.base.x r.dX
  x' : IntRange r.dX
  y : IsInt p.base.y r.dY
  y' : IntRange r.dY
  th : ∃ e : Int, IsInt p.base.th e ∧ IntRange e ∧ r.endTheta = XPrim.normSet T e
  m : IsInt p.base.m r.mult
  m' : r.mult ≤ 2147483647
  rad : ∃ q, IsDec p.rad q
  n : IsInt p.base.n p.base.poses.length
  n' : p.base.poses.length ≤ 2147483647
  poses : List.Forall₂ PoseDenotes p.base.poses r.pts
  lx : p.base.x.length < 60
  ly : p.base.y.length < 60
  lth : p.base.th.length < 60

variable {dirs : List ℚ}

theorem readPrimSet_layout {cs : ℚ} {p : PrimSetText} {id : Int} {r : RawPrim} (D : DenotesSet T p id r) (L : Layout (p.words ++ ws) t) :
    (XPrim.checkEndSet cs T dirs r = .ok true → ∃ t', readPrimSet cs T dirs t = .ok (some (id, r), t') ∧ Layout ws t') ∧
    (XPrim.checkEndSet cs T dirs r = .ok false → ∃ t', readPrimSet cs T dirs t = .ok (none, t')) := by
  obtain ⟨e, te, te', hte⟩ := D.th
  obtain ⟨q, hq⟩ := D.rad
  obtain ⟨t1, e1, f1, L⟩ := lab (s := "primID:") none L (by decide)
  obtain ⟨t2, e2, L, _⟩ := scanD_layout L D.hid D.hid'
  obtain ⟨t3, e3, f3, L⟩ := lab (s := "startangle_c:") (some "primID:".toList) L (by decide)
  obtain ⟨t4, e4, L⟩ := scanKeep_layout none L D.st D.st'
  obtain ⟨t5, e5, f5, L⟩ := lab (s := "endpose_c:") (some "startangle_c:".toList) L (by decide)
  obtain ⟨t6, e6, L⟩ := readCellSet_layout (T := T) L D.lx D.ly D.lth D.x D.y te D.x' D.y' te'
  obtain ⟨t7, e7, f7, L⟩ := lab (s := "additionalactioncostmult:") (some "endpose_c:".toList) L (by decide)
  obtain ⟨t8, e8, L, _⟩ := scanD_layout L D.m (by have := D.m'; unfold IntRange; omega)
  obtain ⟨u1, g1, v1, L⟩ := lab (s := "turning_radius:") (some "additionalactioncostmult:".toList) L (by decide)
  obtain ⟨u2, g2, L⟩ := scanF_layout L hq
  obtain ⟨t9, e9, f9, L⟩ := lab (s := "intermediateposes:") (some "turning_radius:".toList) L (by decide)
  obtain ⟨t10, e10, L, _⟩ := scanD_layout L D.n (by have := D.n'; unfold IntRange; omega)
  obtain ⟨t11, e11, L⟩ := readPoses_layout D.poses L
  have key : readPrimSet cs T dirs t = (match XPrim.checkEndSet cs T dirs r with
    | .error _ => fail .ub
    | .ok ok => if ok then pure (some (id, r)) else pure none : Rd (Option (Int × RawPrim))) t11 := by
    unfold readPrimSet
    rw [bind_ok e1, bind_ok f1]
    simp only [Bool.not_true, Bool.false_eq_true, if_false]
    rw [bind_ok e2]
    simp only
    rw [bind_ok e3, bind_ok f3]
    simp only [Bool.not_true, Bool.false_eq_true, if_false]
    rw [bind_ok e4]
    simp only
    rw [bind_ok e5, bind_ok f5]
    simp only [Bool.not_true, Bool.false_eq_true, if_false]
    rw [bind_ok e6, bind_ok e7, bind_ok f7]
    simp only [Bool.not_true, Bool.false_eq_true, if_false]
    rw [bind_ok e8]
    simp only
    rw [bind_ok g1, bind_ok v1]
    simp only [Bool.not_true, Bool.false_eq_true, if_false]
    rw [bind_ok g2]
    simp only
    rw [bind_ok e9, bind_ok f9]
    simp only [Bool.not_true, Bool.false_eq_true, if_false]
    rw [bind_ok e10]
    simp only [Int.toNat_natCast]
    rw [bind_ok e11]
    rw [if_neg (by omega)]
    rw [← hte]
    rfl
  refine ⟨?_, ?_⟩
  · intro hc
    refine ⟨t11, ?_, L⟩
    rw [key, hc]; rfl
  · intro hc
    refine ⟨t11, ?_⟩
    rw [key, hc]; rfl

theorem readPrimSetList_layout {cs : ℚ} : ∀ {ps : List PrimSetText} {vs : List (Int × RawPrim)} {t : Text},
    List.Forall₂ (fun (p : PrimSetText) (v : Int × RawPrim) => DenotesSet T p v.1 v.2 ∧ XPrim.checkEndSet cs T dirs v.2 = .ok true) ps vs → Layout (ps.flatMap PrimSetText.words ++ ws) t →
    ∃ t', readPrimSetList cs T dirs ps.length t = .ok (some vs, t') ∧ Layout ws t' := by
  intro ps
  induction ps with
  | nil => intro vs t h L; cases h; exact ⟨t, rfl, L⟩
  | cons p ps ih =>
    intro vs t h L
    cases h with
    | @cons _ v _ vs hp hps =>
      rw [List.flatMap_cons, List.append_assoc] at L
      obtain ⟨t1, e1, L⟩ := (readPrimSet_layout (cs := cs) hp.1 L).1 hp.2
      obtain ⟨t2, e2, L⟩ := ih hps L
      refine ⟨t2, ?_, L⟩
      rw [List.length_cons, readPrimSetList, bind_ok e1]
      simp only
      rw [bind_ok e2]
      rfl

theorem readPrimSetList_bad {cs : ℚ} {p : PrimSetText} {id : Int} {r : RawPrim} (D : DenotesSet T p id r) (hc : XPrim.checkEndSet cs T dirs r = .ok false) :
    ∀ {ps : List PrimSetText} {vs : List (Int × RawPrim)} {t : Text} (k : Nat),
    List.Forall₂ (fun (p : PrimSetText) (v : Int × RawPrim) => DenotesSet T p v.1 v.2 ∧ XPrim.checkEndSet cs T dirs v.2 = .ok true) ps vs →
    Layout (ps.flatMap PrimSetText.words ++ (p.words ++ ws)) t →
    ∃ t', readPrimSetList cs T dirs (ps.length + 1 + k) t = .ok (none, t') := by
  intro ps
  induction ps with
  | nil =>
    intro vs t k h L
    obtain ⟨t1, e1⟩ := (readPrimSet_layout (cs := cs) D L).2 hc
    refine ⟨t1, ?_⟩
    show readPrimSetList cs T dirs (0 + 1 + k) t = _
    rw [show 0 + 1 + k = k + 1 by omega, readPrimSetList, bind_ok e1]; rfl
  | cons p ps ih =>
    intro vs t k h L
    cases h with
    | @cons _ v _ vs hp hps =>
      rw [List.flatMap_cons, List.append_assoc] at L
      obtain ⟨t1, e1, L⟩ := (readPrimSet_layout (cs := cs) hp.1 L).1 hp.2
      obtain ⟨t2, e2⟩ := ih k hps L
      refine ⟨t2, ?_⟩
      rw [List.length_cons, show ps.length + 1 + 1 + k = (ps.length + 1 + k) + 1 by omega, readPrimSetList, bind_ok e1]
      simp only
      rw [bind_ok e2]
      rfl

theorem readAngles_layout : ∀ {aws : List Word} {as : List ℚ} {i : Nat} {t : Text} (b : Option (List Char)), List.Forall₂ IsDec aws as → i + aws.length ≤ 2147483647 →
    Layout (angleWords i aws ++ ws) t → ∃ t' b', readAngles i aws.length b t = .ok (some as, t') ∧ Layout ws t' ∧ (aws = [] ∧ b' = b ∨ b'.isSome = true) := by
  intro aws
  induction aws with
  | nil => intro as i t b h _ L; cases h; exact ⟨t, b, rfl, L, .inl ⟨rfl, rfl⟩⟩
  | cons w aws ih =>
    intro as i t b h hl L
    cases h with
    | @cons _ a _ as hw has =>
      rw [List.length_cons] at hl
      obtain ⟨t1, e1, f1, L⟩ := lab (s := angleLabel i) b L (label_length (by omega))
      obtain ⟨t2, e2, L⟩ := scanF_layout L hw
      obtain ⟨t3, b3, e3, L, _⟩ := ih (some (angleLabel i).toList) has (i := i + 1) (by omega) L
      refine ⟨t3, some [], ?_, L, .inr rfl⟩
      rw [List.length_cons, readAngles, bind_ok e1, bind_ok f1]
      simp only [Bool.not_true, Bool.false_eq_true, if_false]
      rw [bind_ok e2]
      simp only
      rw [bind_ok e3]
      rfl

theorem prims_set_head {cs : ℚ} {cw rw' tw nw : Word} {aws more : List Word} {f g : ℚ} {as : List ℚ} {n : Nat} (L : Layout (primSetFile cw rw' tw nw aws more) t) (hc : IsDec cw f)
    (hf : |f - cs| ≤ 1 / 10000000) (hg : IsDec rw' g) (ht : IsInt tw T) (hT : T ≤ 2147483647) (ha : List.Forall₂ IsDec aws as) (hal : aws.length = T)
    (hn : IsInt nw n) (hN : n ≤ 2147483647) : ∃ t', Layout more t' ∧ readPrimsSet cs T t =
      (do let some l ← readPrimSetList cs T (as ++ [2 * Utils.PI_CONST]) n | return none
          pure (some (as ++ [2 * Utils.PI_CONST], l)) : Rd (Option (List ℚ × List (Int × RawPrim)))) t' := by
  unfold primSetFile at L
  rw [List.append_assoc, List.append_assoc] at L
  obtain ⟨t1, e1, f1, L⟩ := lab (s := "resolution_m:") none L (by decide)
  obtain ⟨t2, e2, L⟩ := scanF_layout L hc
  obtain ⟨t3, e3, f3, L⟩ := lab (s := "min_turning_radius_m:") (some "resolution_m:".toList) L (by decide)
  obtain ⟨t4, e4, L⟩ := scanF_layout L hg
  obtain ⟨t5, e5, f5, L⟩ := lab (s := "numberofangles:") (some "min_turning_radius_m:".toList) L (by decide)
  obtain ⟨t6, e6, L⟩ := scanKeep_layout none L ht (by unfold IntRange; omega)
  obtain ⟨t7, _, e7, L, _⟩ := readAngles_layout (some "numberofangles:".toList) ha (i := 0) (by omega) L
  rw [hal] at e7
  obtain ⟨t8, e8, f8, L⟩ := lab (s := "totalnumberofprimitives:") (some "numberofangles:".toList) L (by decide)
  obtain ⟨t9, e9, L⟩ := scanKeep_layout (some 0) L hn (by unfold IntRange; omega)
  refine ⟨t9, L, ?_⟩
  unfold readPrimsSet
  rw [bind_ok e1, bind_ok f1]
  simp only [Bool.not_true, Bool.false_eq_true, if_false]
  rw [bind_ok e2]
  simp only
  rw [if_neg (not_lt.mpr hf), bind_ok e3, bind_ok (contents_some _ _), if_neg (by decide), bind_ok f3]
  simp only [Bool.not_true, Bool.false_eq_true, if_false]
  rw [bind_ok e4]
  simp only
  rw [bind_ok e5, bind_ok f5]
  simp only [Bool.not_true, Bool.false_eq_true, if_false]
  rw [bind_ok e6]
  simp only [ne_eq, not_true_eq_false, if_false]
  rw [bind_ok e7]
  simp only
  rw [bind_ok e8, bind_ok f8]
  simp only [Bool.not_true, Bool.false_eq_true, if_false]
  rw [bind_ok e9]
  simp only [Int.toNat_natCast]
  rfl

/-- **C186a** A file with a list of headings, for the cell size and the number of headings of the environment, every primitive of which ends in the cell it gives and with an angle nearest to the
heading it gives, is read as the angles and the primitives it describes. -/
theorem prims_set_read {cs : ℚ} {cw rw' tw nw : Word} {aws extra : List Word} {f g : ℚ} {as : List ℚ} {ps : List PrimSetText} {vs : List (Int × RawPrim)}
    (L : Layout (primSetFile cw rw' tw nw aws (ps.flatMap PrimSetText.words ++ extra)) t) (hc : IsDec cw f) (hf : |f - cs| ≤ 1 / 10000000) (hg : IsDec rw' g)
    (ht : IsInt tw T) (hT : T ≤ 2147483647) (ha : List.Forall₂ IsDec aws as) (hal : aws.length = T) (hn : IsInt nw ps.length) (hN : ps.length ≤ 2147483647)
    (hp : List.Forall₂ (fun (p : PrimSetText) (v : Int × RawPrim) => DenotesSet T p v.1 v.2 ∧ XPrim.checkEndSet cs T (as ++ [2 * Utils.PI_CONST]) v.2 = .ok true) ps vs) :
    ∃ rest, readPrimsSet cs T t = .ok (some (as ++ [2 * Utils.PI_CONST], vs), rest) ∧ Layout extra rest := by
  obtain ⟨t', L', e⟩ := prims_set_head L hc hf hg ht hT ha hal hn hN
  obtain ⟨t2, e2, L2⟩ := readPrimSetList_layout hp L'
  refine ⟨t2, ?_, L2⟩
  rw [e, bind_ok e2]
  rfl

/-- **C186b** If a primitive of the file does not end in the cell and heading it gives, reading fails. -/
theorem prims_set_bad_end {cs : ℚ} {cw rw' tw nw : Word} {aws : List Word} {f g : ℚ} {as : List ℚ} {ps : List PrimSetText} {vs : List (Int × RawPrim)} {p : PrimSetText} {id : Int}
    {r : RawPrim} {more : List Word} {n : Nat}
    (L : Layout (primSetFile cw rw' tw nw aws (ps.flatMap PrimSetText.words ++ (p.words ++ more))) t) (hc : IsDec cw f) (hf : |f - cs| ≤ 1 / 10000000) (hg : IsDec rw' g)
    (ht : IsInt tw T) (hT : T ≤ 2147483647) (ha : List.Forall₂ IsDec aws as) (hal : aws.length = T) (hn : IsInt nw n) (hN : n ≤ 2147483647) (hlt : ps.length < n)
    (hp : List.Forall₂ (fun (p : PrimSetText) (v : Int × RawPrim) => DenotesSet T p v.1 v.2 ∧ XPrim.checkEndSet cs T (as ++ [2 * Utils.PI_CONST]) v.2 = .ok true) ps vs)
    (D : DenotesSet T p id r) (hbad : XPrim.checkEndSet cs T (as ++ [2 * Utils.PI_CONST]) r = .ok false) :
    ∃ rest, readPrimsSet cs T t = .ok (none, rest) := by
  obtain ⟨t', L', e⟩ := prims_set_head L hc hf hg ht hT ha hal hn hN
  obtain ⟨t2, e2⟩ := readPrimSetList_bad D hbad (n - (ps.length + 1)) hp L'
  rw [show ps.length + 1 + (n - (ps.length + 1)) = n by omega] at e2
  refine ⟨t2, ?_⟩
  rw [e, bind_ok e2]
  rfl

end

/-! ### whatever the file contains -/

theorem readPrimSet_safe {cs : ℚ} {T : Nat} {dirs : List ℚ} {t rest : Text} {id : Int} {r : RawPrim} (h : readPrimSet cs T dirs t = .ok (some (id, r), rest)) :
    XPrim.checkEndSet cs T dirs r = .ok true := by
  unfold readPrimSet at h
  obtain ⟨b, t1, -, h⟩ := bind_inv h
  obtain ⟨c, t2, -, h⟩ := bind_inv h
  rcases ite_inv h with ⟨-, h⟩ | ⟨-, h⟩
  · exact (none_ne h).elim
  obtain ⟨v, t3, -, h⟩ := bind_inv h
  rcases v with _ | _ | v
  · exact (none_ne h).elim
  · exact (none_ne h).elim
  simp only at h
  obtain ⟨b, t1, -, h⟩ := bind_inv h
  obtain ⟨c, t2, -, h⟩ := bind_inv h
  rcases ite_inv h with ⟨-, h⟩ | ⟨-, h⟩
  · exact (none_ne h).elim
  obtain ⟨st, t3, -, h⟩ := bind_inv h
  rcases st with _ | st
  · exact (none_ne h).elim
  simp only at h
  obtain ⟨b, t1, -, h⟩ := bind_inv h
  obtain ⟨c, t2, -, h⟩ := bind_inv h
  rcases ite_inv h with ⟨-, h⟩ | ⟨-, h⟩
  · exact (none_ne h).elim
  obtain ⟨e, t3, he, h⟩ := bind_inv h
  obtain ⟨b, t1, -, h⟩ := bind_inv h
  obtain ⟨c, t2, -, h⟩ := bind_inv h
  rcases ite_inv h with ⟨-, h⟩ | ⟨-, h⟩
  · exact (none_ne h).elim
  obtain ⟨m, t3, -, h⟩ := bind_inv h
  rcases m with _ | _ | m
  · exact (none_ne h).elim
  · exact (none_ne h).elim
  simp only at h
  obtain ⟨b, t1, -, h⟩ := bind_inv h
  obtain ⟨c, t2, -, h⟩ := bind_inv h
  rcases ite_inv h with ⟨-, h⟩ | ⟨-, h⟩
  · exact (none_ne h).elim
  obtain ⟨q, t3, -, h⟩ := bind_inv h
  rcases q with _ | _ | q
  · exact (none_ne h).elim
  · exact (none_ne h).elim
  simp only at h
  obtain ⟨b, t1, -, h⟩ := bind_inv h
  obtain ⟨c, t2, -, h⟩ := bind_inv h
  rcases ite_inv h with ⟨-, h⟩ | ⟨-, h⟩
  · exact (none_ne h).elim
  obtain ⟨n, t3, -, h⟩ := bind_inv h
  rcases n with _ | _ | n
  · exact (none_ne h).elim
  · exact (none_ne h).elim
  simp only at h
  obtain ⟨pts, t3, -, h⟩ := bind_inv h
  rcases ite_inv h with ⟨-, h⟩ | ⟨-, h⟩
  · cases h
  generalize hr : (⟨st, e.1, e.2.1, e.2.2, m.toNat, pts⟩ : RawPrim) = r' at h
  cases hc : XPrim.checkEndSet cs T dirs r' with
  | error x => rw [hc] at h; cases h
  | ok ok =>
    rw [hc] at h
    cases ok with
    | false => exact (none_ne h).elim
    | true => cases h; exact hc

theorem readPrimSetList_safe {cs : ℚ} {T : Nat} {dirs : List ℚ} : ∀ {n : Nat} {t rest : Text} {l : List (Int × RawPrim)}, readPrimSetList cs T dirs n t = .ok (some l, rest) →
    ∀ p ∈ l, XPrim.checkEndSet cs T dirs p.2 = .ok true := by
  intro n
  induction n with
  | zero => intro t rest l h; cases h; simp
  | succ n ih =>
    intro t rest l h
    rw [readPrimSetList] at h
    obtain ⟨p, t1, h1, h⟩ := bind_inv h
    rcases p with _ | p
    · exact (none_ne h).elim
    simp only at h
    obtain ⟨l', t2, h2, h⟩ := bind_inv h
    rcases l' with _ | l'
    · exact (none_ne h).elim
    cases h
    intro q hq
    rcases List.mem_cons.mp hq with rfl | hq
    · exact readPrimSet_safe h1
    · exact ih h2 q hq

theorem readAngles_length : ∀ {n i : Nat} {b : Option (List Char)} {t rest : Text} {as : List ℚ}, readAngles i n b t = .ok (some as, rest) → as.length = n := by
  intro n
  induction n with
  | zero => intro i b t rest as h; rw [readAngles] at h; cases h; rfl
  | succ n ih =>
    intro i b t rest as h
    rw [readAngles] at h
    obtain ⟨b, t1, -, h⟩ := bind_inv h
    obtain ⟨c, t2, -, h⟩ := bind_inv h
    rcases ite_inv h with ⟨-, h⟩ | ⟨-, h⟩
    · exact (none_ne h).elim
    obtain ⟨q, t3, -, h⟩ := bind_inv h
    rcases q with _ | _ | q
    · cases h
    · exact (none_ne h).elim
    simp only at h
    obtain ⟨l, t4, h4, h⟩ := bind_inv h
    rcases l with _ | l
    · exact (none_ne h).elim
    cases h
    rw [List.length_cons, ih h4]

theorem readPrimsSet_safe {cs : ℚ} {T : Nat} {t rest : Text} {dirs : List ℚ} {l : List (Int × RawPrim)} (h : readPrimsSet cs T t = .ok (some (dirs, l), rest)) :
    (∃ as, dirs = as ++ [2 * Utils.PI_CONST] ∧ as.length = T) ∧ ∀ p ∈ l, XPrim.checkEndSet cs T dirs p.2 = .ok true := by
  unfold readPrimsSet at h
  obtain ⟨b, t1, -, h⟩ := bind_inv h
  obtain ⟨c, t2, -, h⟩ := bind_inv h
  rcases ite_inv h with ⟨-, h⟩ | ⟨-, h⟩
  · exact (none_ne h).elim
  obtain ⟨v, t3, -, h⟩ := bind_inv h
  rcases v with _ | _ | f
  · cases h
  · exact (none_ne h).elim
  simp only at h
  rcases ite_inv h with ⟨-, h⟩ | ⟨-, h⟩
  · exact (none_ne h).elim
  obtain ⟨b, t1, -, h⟩ := bind_inv h
  obtain ⟨w, t1, -, h⟩ := bind_inv h
  rcases ite_inv h with ⟨-, h⟩ | ⟨-, h⟩
  · cases h
  obtain ⟨c, t2, -, h⟩ := bind_inv h
  rcases ite_inv h with ⟨-, h⟩ | ⟨-, h⟩
  · exact (none_ne h).elim
  obtain ⟨q, t3, -, h⟩ := bind_inv h
  rcases q with _ | _ | q
  rotate_left
  · exact (none_ne h).elim
  all_goals
    simp only at h
    obtain ⟨b, t1, -, h⟩ := bind_inv h
    obtain ⟨c, t2, -, h⟩ := bind_inv h
    rcases ite_inv h with ⟨-, h⟩ | ⟨-, h⟩
    · exact (none_ne h).elim
    obtain ⟨d, t3, -, h⟩ := bind_inv h
    rcases d with _ | d
    · exact (none_ne h).elim
    simp only at h
    rcases ite_inv h with ⟨-, h⟩ | ⟨-, h⟩
    · exact (none_ne h).elim
    obtain ⟨as, t4, ha, h⟩ := bind_inv h
    rcases as with _ | as
    · exact (none_ne h).elim
    simp only at h
    obtain ⟨b, t1, -, h⟩ := bind_inv h
    obtain ⟨c, t2, -, h⟩ := bind_inv h
    rcases ite_inv h with ⟨-, h⟩ | ⟨-, h⟩
    · exact (none_ne h).elim
    obtain ⟨n, t3, -, h⟩ := bind_inv h
    rcases n with _ | n
    · exact (none_ne h).elim
    simp only at h
    obtain ⟨l', t5, hl, h⟩ := bind_inv h
    rcases l' with _ | l'
    · exact (none_ne h).elim
    cases h
    exact ⟨⟨as, rfl, readAngles_length ha⟩, readPrimSetList_safe hl⟩

theorem checkEnd_set_ok {cs : ℚ} {T : Nat} {dirs : List ℚ} {r : RawPrim} (hc : XPrim.checkEndSet cs T dirs r = .ok true) (H : HeadingSet T dirs) :
    ∃ (e : ℚ × ℚ × ℚ) (i : Nat), r.pts.getLast? = some e ∧ Utils.contXY2Disc (cs / 2 + e.1) cs = r.dX ∧ Utils.contXY2Disc (cs / 2 + e.2.1) cs = r.dY ∧
      r.endTheta = i ∧ Nearest T dirs e.2.2 i := by
  unfold XPrim.checkEndSet at hc
  split at hc
  · cases hc
  split at hc
  · cases hc
  next q hq =>
    split at hc
    · cases hc
    next i hi =>
      have hc := of_decide_eq_true (Except.ok.inj hc)
      have z : Utils.discXY2Cont 0 cs = cs / 2 := by simp [Utils.discXY2Cont]
      rw [z] at hc
      obtain ⟨i', e', n⟩ := heading_ok H q.2.2
      rw [hi] at e'
      cases e'
      exact ⟨q, i, hq, hc.1, hc.2.1, hc.2.2.symm, n⟩

/-- **C186c** Whatever the file contains: if it is accepted and its angles are increasing, begin with 0 and end below 2π, every primitive accepted has at least one pose, its last pose lies in the
cell it gives as its end, and the heading it gives, which is one of the list, is nearest to its last angle. -/
theorem prims_set_safe {cs : ℚ} {T : Nat} {t rest : Text} {dirs : List ℚ} {l : List (Int × RawPrim)} (h : readPrimsSet cs T t = .ok (some (dirs, l), rest)) (H : HeadingSet T dirs) :
    ∀ p ∈ l, ∃ (e : ℚ × ℚ × ℚ) (i : Nat), p.2.pts.getLast? = some e ∧ Utils.contXY2Disc (cs / 2 + e.1) cs = p.2.dX ∧ Utils.contXY2Disc (cs / 2 + e.2.1) cs = p.2.dY ∧
      p.2.endTheta = i ∧ Nearest T dirs e.2.2 i := by
  intro p hp
  exact checkEnd_set_ok ((readPrimsSet_safe h).2 p hp) H

end Sbpl.XAngProps
