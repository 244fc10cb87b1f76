import Verif.Model.CfgFile
import Verif.Spec.Files
import Mathlib.Tactic.Ring
import Mathlib.Tactic.Linarith
/-!
# `fscanf`, `atoi`, `atof` on words
-/

namespace Sbpl.Scan
open Sbpl FileSpec

variable {α β : Type}

theorem bind_eq (m : Rd α) (f : α → Rd β) (t : Text) : (m >>= f) t = match m t with
    | .error e => .error e
    | .ok (a, t') => f a t' := rfl

theorem bind_ok {m : Rd α} {f : α → Rd β} {t t' : Text} {a : α} (h : m t = .ok (a, t')) : (m >>= f) t = f a t' := by
  rw [bind_eq, h]

theorem bind_err {m : Rd α} {f : α → Rd β} {t : Text} {e : FileErr} (h : m t = .error e) : (m >>= f) t = .error e := by
  rw [bind_eq, h]

theorem bind_inv {m : Rd α} {f : α → Rd β} {t : Text} {r : β × Text} (h : (m >>= f) t = .ok r) :
    ∃ a t', m t = .ok (a, t') ∧ f a t' = .ok r := by
  rw [bind_eq] at h
  split at h
  · cases h
  · next a t' e => exact ⟨a, t', e, h⟩

theorem pure_eq (a : α) (t : Text) : (pure a : Rd α) t = .ok (a, t) := rfl

theorem blank_iff {c : Char} : isSpace c = true ↔ Blank c := by
  unfold isSpace Blank
  simp

theorem blank_false {c : Char} : isSpace c = false ↔ ¬ Blank c := by
  rw [← blank_iff]; simp

theorem isDigit_iff {c : Char} : isDigit c = true ↔ 48 ≤ c.toNat ∧ c.toNat ≤ 57 := by
  unfold isDigit; simp

theorem dropWhile_append {p : Char → Bool} {a b : List Char} (ha : ∀ c ∈ a, p c = true) (hb : ∀ c, b.head? = some c → p c = false) :
    (a ++ b).dropWhile p = b ∧ (a ++ b).takeWhile p = a := by
  induction a with
  | nil =>
    cases b with
    | nil => exact ⟨rfl, rfl⟩
    | cons c b => simp [hb c rfl]
  | cons c a ih =>
    have := ih (fun d hd => ha d (List.mem_cons_of_mem _ hd))
    simp [ha c List.mem_cons_self, this.1, this.2]

/-- splitting a text with at least one word -/
theorem layout_drop {w : Word} {ws : List Word} {t : Text} (h : Layout (w :: ws) t) :
    ∃ r, t.dropWhile isSpace = w ++ r ∧ w ≠ [] ∧ (∀ c ∈ w, ¬ Blank c) ∧ (∀ c, r.head? = some c → Blank c) ∧ Layout ws r := by
  cases h with
  | @more s r _ _ h1 h2 h3 h4 h5 =>
    refine ⟨r, ?_, h2, h3, h4, h5⟩
    rw [List.append_assoc]
    refine (dropWhile_append (fun c hc => blank_iff.mpr (h1 c hc)) ?_).1
    intro c hc
    cases w with
    | nil => exact absurd rfl h2
    | cons d w => simp at hc; subst hc; exact blank_false.mpr (h3 _ List.mem_cons_self)

theorem layout_nil {t : Text} (h : Layout [] t) : t.dropWhile isSpace = [] := by
  cases h with
  | done h => have := (dropWhile_append (p := isSpace) (a := t) (b := []) (fun c hc => blank_iff.mpr (h c hc)) (by simp)).1; simpa using this

theorem word_layout {w : Word} {ws : List Word} {t : Text} {size : Nat} (h : Layout (w :: ws) t) (hs : w.length < size) :
    ∃ t', word size t = .ok (some w, t') ∧ Layout ws t' ∧ (∀ c, t'.head? = some c → Blank c) := by
  obtain ⟨r, h1, h2, h3, h4, h5⟩ := layout_drop h
  refine ⟨r, ?_, h5, h4⟩
  have q := dropWhile_append (p := fun c => !isSpace c) (a := w) (b := r) (fun c hc => by simp [blank_false.mpr (h3 c hc)])
    (fun c hc => by simp [blank_iff.mpr (h4 c hc)])
  unfold word
  simp only [h1, q.1, q.2]
  rw [if_neg (by cases w <;> simp at h2 ⊢), if_neg (by omega)]

theorem word_long {w : Word} {ws : List Word} {t : Text} {size : Nat} (h : Layout (w :: ws) t) (hs : size ≤ w.length) :
    word size t = .error .ub := by
  obtain ⟨r, h1, h2, h3, h4, h5⟩ := layout_drop h
  have q := dropWhile_append (p := fun c => !isSpace c) (a := w) (b := r) (fun c hc => by simp [blank_false.mpr (h3 c hc)])
    (fun c hc => by simp [blank_iff.mpr (h4 c hc)])
  unfold word
  simp only [h1, q.1, q.2]
  rw [if_neg (by cases w <;> simp at h2 ⊢), if_pos hs]

theorem word_eof {t : Text} {size : Nat} (h : Layout [] t) : word size t = .ok (none, []) := by
  unfold word
  rw [layout_nil h]; rfl

theorem natOf_eq (ds : Word) : natOf ds = decVal ds := by
  have key : ∀ (ds : Word) (n : Nat), ds.foldl (fun n c => 10 * n + (c.toNat - 48)) n = n * 10 ^ ds.length + decVal ds := by
    intro ds
    induction ds with
    | nil => intro n; simp [decVal]
    | cons c ds ih =>
      intro n
      rw [List.foldl_cons, ih, decVal, List.length_cons]
      ring
  unfold natOf
  rw [key]; simp

theorem optSign_plain {c : Char} {l : List Char} (h : c ≠ '-') (h' : c ≠ '+') : optSign (c :: l) = (false, c :: l) := by
  unfold optSign
  split
  · next e => simp at e; exact absurd e.1 h
  · next e => simp at e; exact absurd e.1 h'
  · rfl

theorem digits_ne {w : Word} (h : Digits w) {c : Char} (hc : c ∈ w) : c ≠ '-' ∧ c ≠ '+' ∧ c ≠ '.' ∧ c ≠ 'e' ∧ c ≠ 'E' := by
  have := h c hc
  refine ⟨?_, ?_, ?_, ?_, ?_⟩ <;> (rintro rfl; revert this; decide)

theorem intPrefix_int {w : Word} {v : Int} (h : IsInt w v) {r : Text} (hr : ∀ c, r.head? = some c → ¬ (48 ≤ c.toNat ∧ c.toNat ≤ 57)) :
    intPrefix (w ++ r) = some (v, r) := by
  have q : ∀ {w : Word}, Digits w → (w ++ r).dropWhile isDigit = r ∧ (w ++ r).takeWhile isDigit = w := fun hd =>
    dropWhile_append (fun c hc => isDigit_iff.mpr (hd c hc)) (fun c hc => by
      have := hr c hc
      rw [← isDigit_iff] at this; simpa using this)
  cases h with
  | plain h1 h2 =>
    have e : optSign (w ++ r) = (false, w ++ r) := by
      cases w with
      | nil => exact absurd rfl h1
      | cons c w => exact optSign_plain (digits_ne h2 List.mem_cons_self).1 (digits_ne h2 List.mem_cons_self).2.1
    unfold intPrefix
    rw [e]
    simp only [(q h2).1, (q h2).2, natOf_eq]
    cases w <;> simp at h1 ⊢
  | @plus w h1 h2 =>
    have e : optSign ('+' :: w ++ r) = (false, w ++ r) := rfl
    unfold intPrefix
    rw [e]
    simp only [(q h2).1, (q h2).2, natOf_eq]
    cases w <;> simp at h1 ⊢
  | @minus w h1 h2 =>
    have e : optSign ('-' :: w ++ r) = (true, w ++ r) := rfl
    unfold intPrefix
    rw [e]
    simp only [(q h2).1, (q h2).2, natOf_eq]
    cases w <;> simp at h1 ⊢

theorem blank_not_digit {c : Char} (h : Blank c) : ¬ (48 ≤ c.toNat ∧ c.toNat ≤ 57) := by
  unfold Blank at h; omega

theorem inInt_ok {v : Int} (h : IntRange v) (t : Text) : inInt v t = .ok (v, t) := by
  have : inInt v = pure v := if_pos h
  rw [this]; rfl

theorem atoi_int {w : Word} {v : Int} (h : IsInt w v) (hv : IntRange v) (t : Text) : atoi w t = .ok (v, t) := by
  have := intPrefix_int h (r := []) (by simp)
  rw [List.append_nil] at this
  unfold atoi
  rw [this]
  exact inInt_ok hv t

theorem scanD_layout {w : Word} {ws : List Word} {t : Text} {v : Int} (h : Layout (w :: ws) t) (hi : IsInt w v) (hv : IntRange v) :
    ∃ t', scanD t = .ok (.one v, t') ∧ Layout ws t' ∧ (∀ c, t'.head? = some c → Blank c) := by
  obtain ⟨r, h1, h2, h3, h4, h5⟩ := layout_drop h
  refine ⟨r, ?_, h5, h4⟩
  unfold scanD
  simp only [h1]
  rw [if_neg (by cases w <;> simp at h2 ⊢), intPrefix_int hi (fun c hc => blank_not_digit (h4 c hc))]
  simp only
  rw [bind_ok (inInt_ok hv r)]; rfl

theorem scanD_eof {t : Text} (h : Layout [] t) : scanD t = .ok (.eof, []) := by
  unfold scanD
  rw [layout_nil h]; rfl

theorem scanD_nomatch {w : Word} {ws : List Word} {t : Text} (h : Layout (w :: ws) t) (hn : NotInt w) :
    ∃ t', scanD t = .ok (.nomatch, t') := by
  obtain ⟨r, h1, h2, h3, h4, h5⟩ := layout_drop h
  refine ⟨w ++ r, ?_⟩
  cases w with
  | nil => exact absurd rfl h2
  | cons c w =>
    obtain ⟨n1, n2, n3⟩ := hn c rfl
    have n3 : isDigit c = false := by rw [← isDigit_iff] at n3; simpa using n3
    unfold scanD
    simp only [h1]
    rw [if_neg (by simp)]
    have : intPrefix (c :: w ++ r) = none := by
      unfold intPrefix
      rw [List.cons_append, optSign_plain n2 n1]
      simp [n3]
    rw [this]

theorem uDec_split {w : Word} {q : ℚ} (h : IsUDec w q) {r : Text} (hr : ∀ c, r.head? = some c → Blank c) :
    ∃ d1 f, Digits d1 ∧ Digits f ∧ (d1 ≠ [] ∨ f ≠ []) ∧ (w ++ r).takeWhile isDigit = d1 ∧ fracPrefix ((w ++ r).dropWhile isDigit) = (f, r) ∧
      q = decVal (d1 ++ f) / 10 ^ f.length := by
  have nd : ∀ c, r.head? = some c → isDigit c = false := fun c hc => by
    have := blank_not_digit (hr c hc)
    rw [← isDigit_iff] at this; simpa using this
  have fr : fracPrefix r = ([], r) := by
    unfold fracPrefix
    split
    · next t => exact absurd (hr '.' rfl) (by unfold Blank; decide)
    · rfl
  cases h with
  | whole h1 h2 =>
    have q := dropWhile_append (p := isDigit) (a := w) (b := r) (fun c hc => isDigit_iff.mpr (h2 c hc)) nd
    exact ⟨w, [], h2, by intro c hc; simp at hc, .inl h1, q.2, by rw [q.1, fr], by simp⟩
  | @point d f h1 h2 h3 =>
    have q := dropWhile_append (p := isDigit) (a := d) (b := '.' :: (f ++ r)) (fun c hc => isDigit_iff.mpr (h2 c hc)) (by simp; decide)
    have q2 := dropWhile_append (p := isDigit) (a := f) (b := r) (fun c hc => isDigit_iff.mpr (h3 c hc)) nd
    refine ⟨d, f, h2, h3, h1, ?_, ?_, ?_⟩
    · rw [List.append_assoc]; exact q.2
    · rw [List.append_assoc]
      show fracPrefix ((d ++ '.' :: (f ++ r)).dropWhile isDigit) = _
      rw [q.1]
      show (List.takeWhile isDigit (f ++ r), List.dropWhile isDigit (f ++ r)) = (f, r)
      rw [q2.1, q2.2]
    · have e : ∀ (a b : Word), decVal (a ++ b) = decVal a * 10 ^ b.length + decVal b := by
        intro a b
        induction a with
        | nil => simp [decVal]
        | cons c a ih => rw [List.cons_append, decVal, decVal, ih, List.length_append, Nat.pow_add]; ring
      rw [e]
      push_cast
      field_simp

theorem expPrefix_blank {r : Text} (hr : ∀ c, r.head? = some c → Blank c) : expPrefix r = (0, r) := by
  cases r with
  | nil => rfl
  | cons c r =>
    have := hr c rfl
    have n : ¬ (c = 'e' ∨ c = 'E') := by
      rintro (rfl | rfl) <;> exact absurd this (by unfold Blank; decide)
    simp only [expPrefix, if_neg n]

theorem decPrefix_udec {w : Word} {q : ℚ} (h : IsUDec w q) {r : Text} (hr : ∀ c, r.head? = some c → Blank c) {t : Text} {neg : Bool}
    (ht : optSign t = (neg, w ++ r)) : decPrefix t = some (if neg then -q else q, r) := by
  obtain ⟨d1, f, h1, h2, h3, h4, h5, h6⟩ := uDec_split h hr
  unfold decPrefix
  rw [ht]
  simp only [h4, h5, expPrefix_blank hr]
  rw [if_neg (by rcases h3 with h3 | h3 <;> simp [h3])]
  rw [natOf_eq, h6]
  simp

theorem digit_code {c : Char} (h : 48 ≤ c.toNat ∧ c.toNat ≤ 57) {d : Char} (hd : d.toNat < 48 ∨ 57 < d.toNat) : c ≠ d := by
  rintro rfl; omega

theorem blank_code {c : Char} (h : Blank c) {d : Char} (hd : 33 ≤ d.toNat) : c ≠ d := by
  rintro rfl; unfold Blank at h; omega

/-- the second character of a decimal number (and of what follows it) is no `x` -/
theorem special_false {w : Word} {q : ℚ} (h : IsUDec w q) {r : Text} (hr : ∀ c, r.head? = some c → Blank c) : special (w ++ r) = false := by
  have nx : ∀ (d l : Word), Digits d → (∀ c, l.head? = some c → c ≠ 'x' ∧ c ≠ 'X') → ∀ c, (d ++ l).head? = some c → c ≠ 'x' ∧ c ≠ 'X' := by
    intro d l hd hl c hc
    cases d with
    | nil => exact hl c hc
    | cons e d =>
      simp at hc; subst hc
      have := hd _ List.mem_cons_self
      exact ⟨digit_code this (by decide), digit_code this (by decide)⟩
  have fin : ∀ (c : Char) (l : Text), (48 ≤ c.toNat ∧ c.toNat ≤ 57) ∨ c = '.' → (∀ c, l.head? = some c → c ≠ 'x' ∧ c ≠ 'X') → special (c :: l) = false := by
    intro c l hc hl
    have h1 : l.head? ≠ some 'x' := fun e => (hl _ e).1 rfl
    have h2 : l.head? ≠ some 'X' := fun e => (hl _ e).2 rfl
    rcases hc with hc | rfl
    · simp [special, h1, h2, digit_code hc (d := 'i') (by decide), digit_code hc (d := 'I') (by decide), digit_code hc (d := 'n') (by decide),
        digit_code hc (d := 'N') (by decide)]
    · simp [special]
  have hrx : ∀ c, r.head? = some c → c ≠ 'x' ∧ c ≠ 'X' := fun c hc => ⟨blank_code (hr c hc) (by decide), blank_code (hr c hc) (by decide)⟩
  cases h with
  | whole h1 h2 =>
    cases w with
    | nil => exact absurd rfl h1
    | cons c w => exact fin c _ (.inl (h2 c List.mem_cons_self)) (nx w r (fun c hc => h2 c (List.mem_cons_of_mem _ hc)) hrx)
  | @point d f h1 h2 h3 =>
    have ndot : ∀ c, ('.' :: (f ++ r)).head? = some c → c ≠ 'x' ∧ c ≠ 'X' := by
      intro c hc; simp at hc; subst hc; decide
    cases d with
    | nil => exact fin '.' _ (.inr rfl) (nx f r h3 hrx)
    | cons c d =>
      rw [List.cons_append, List.cons_append, List.append_assoc]
      exact fin c _ (.inl (h2 c List.mem_cons_self)) (nx d _ (fun c hc => h2 c (List.mem_cons_of_mem _ hc)) ndot)

theorem optSign_udec {w : Word} {q : ℚ} (h : IsUDec w q) (r : Text) : optSign (w ++ r) = (false, w ++ r) := by
  cases h with
  | whole h1 h2 =>
    cases w with
    | nil => exact absurd rfl h1
    | cons c w => exact optSign_plain (digits_ne h2 List.mem_cons_self).1 (digits_ne h2 List.mem_cons_self).2.1
  | @point d f h1 h2 h3 =>
    cases d with
    | nil => rfl
    | cons c d => exact optSign_plain (digits_ne h2 List.mem_cons_self).1 (digits_ne h2 List.mem_cons_self).2.1

/-- a decimal number at the beginning of a text -/
theorem decPrefix_dec {w : Word} {q : ℚ} (h : IsDec w q) {r : Text} (hr : ∀ c, r.head? = some c → Blank c) :
    decPrefix (w ++ r) = some (q, r) ∧ special (optSign (w ++ r)).2 = false := by
  cases h with
  | plain h =>
    have e := optSign_udec h r
    exact ⟨by have := decPrefix_udec h hr e; simpa using this, by rw [e]; exact special_false h hr⟩
  | @plus w _ h =>
    have e : optSign ('+' :: w ++ r) = (false, w ++ r) := rfl
    exact ⟨by have := decPrefix_udec h hr e; simpa using this, by rw [e]; exact special_false h hr⟩
  | @minus w q h =>
    have e : optSign ('-' :: w ++ r) = (true, w ++ r) := rfl
    exact ⟨by have := decPrefix_udec h hr e; simpa using this, by rw [e]; exact special_false h hr⟩

theorem atof_dec {w : Word} {q : ℚ} (h : IsDec w q) (t : Text) : atof w t = .ok (q, t) := by
  obtain ⟨h1, h2⟩ := decPrefix_dec h (r := []) (by simp)
  rw [List.append_nil] at h1 h2
  have : atof w = pure q := by
    unfold atof
    rw [h1, h2]; simp
  rw [this]; rfl

theorem scanF_layout {w : Word} {ws : List Word} {t : Text} {q : ℚ} (h : Layout (w :: ws) t) (hi : IsDec w q) :
    ∃ t', scanF t = .ok (.one q, t') ∧ Layout ws t' := by
  obtain ⟨r, h1, h2, h3, h4, h5⟩ := layout_drop h
  refine ⟨r, ?_, h5⟩
  obtain ⟨e1, e2⟩ := decPrefix_dec hi h4
  unfold scanF
  simp only [h1]
  rw [if_neg (by cases w <;> simp at h2 ⊢), e2, e1]
  rfl

/-- every text consists of words -/
theorem layout_exists (t : Text) : ∃ ws, Layout ws t := by
  have key : ∀ n (t : Text), t.length ≤ n → ∃ ws, Layout ws t := by
    intro n
    induction n with
    | zero => intro t h; exact ⟨[], .done (by intro c hc; cases t <;> simp at h hc)⟩
    | succ n ih =>
      intro t h
      have e1 : t = t.takeWhile isSpace ++ t.dropWhile isSpace := (List.takeWhile_append_dropWhile).symm
      have b1 : ∀ c ∈ t.takeWhile isSpace, Blank c := fun c hc => blank_iff.mp (by
        have := List.all_takeWhile (p := isSpace) (l := t); rw [List.all_eq_true] at this; exact this c hc)
      generalize t.takeWhile isSpace = s at e1 b1
      have hd : ∀ c, (t.dropWhile isSpace).head? = some c → isSpace c = false := by
        intro c hc
        have := List.head?_dropWhile_not isSpace t
        rw [hc] at this; simpa using this
      generalize t.dropWhile isSpace = u at e1 hd
      cases u with
      | nil => exact ⟨[], by rw [e1, List.append_nil]; exact .done b1⟩
      | cons c u =>
        have hc := hd c rfl
        have e2 : (c :: u) = (c :: u).takeWhile (fun c => !isSpace c) ++ (c :: u).dropWhile (fun c => !isSpace c) := (List.takeWhile_append_dropWhile).symm
        have b2 : ∀ d ∈ (c :: u).takeWhile (fun c => !isSpace c), ¬ Blank d := fun d hd' => by
          have := List.all_takeWhile (p := fun c => !isSpace c) (l := c :: u)
          rw [List.all_eq_true] at this
          have := this d hd'
          exact blank_false.mp (by simpa using this)
        have n2 : (c :: u).takeWhile (fun c => !isSpace c) ≠ [] := by simp [hc]
        have h2 : ∀ d, ((c :: u).dropWhile (fun c => !isSpace c)).head? = some d → Blank d := by
          intro d hd'
          have := List.head?_dropWhile_not (fun c => !isSpace c) (c :: u)
          rw [hd'] at this
          exact blank_iff.mp (by simpa using this)
        generalize (c :: u).takeWhile (fun c => !isSpace c) = w at e2 b2 n2
        generalize (c :: u).dropWhile (fun c => !isSpace c) = v at e2 h2
        have hl : v.length ≤ n := by
          have l1 : t.length = s.length + (c :: u).length := by rw [e1, List.length_append]
          have l2 : (c :: u).length = w.length + v.length := by rw [e2, List.length_append]
          have : 0 < w.length := List.length_pos_iff.mpr n2
          omega
        obtain ⟨ws, hw⟩ := ih v hl
        exact ⟨w :: ws, by rw [e1, e2, ← List.append_assoc]; exact .more b1 n2 b2 h2 hw⟩
  exact key _ t (Nat.le_refl _)

end Sbpl.Scan
