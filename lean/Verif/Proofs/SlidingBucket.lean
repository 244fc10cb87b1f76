import Mathlib.Tactic.Linarith
import Mathlib.Tactic.SplitIfs
import Mathlib.Order.Defs.LinearOrder
import Verif.Model.SlidingBucket
/-! The sliding buckets refine a list sorted by priority. -/

namespace Sbpl.SBuck

/-- contents: (element, priority) -/
abbrev Q := List (Nat × Int)

/-- elements of priority `p`, in order -/
def F (L : Q) (p : Int) : List Nat := (L.filter (fun e => e.2 == p)).map Prod.fst

/-- stable insertion by priority -/
def ins (L : Q) (x : Nat) (p : Int) : Q := L.takeWhile (fun e => decide (e.2 ≤ p)) ++ (x, p) :: L.dropWhile (fun e => decide (e.2 ≤ p))

def Sorted (L : Q) : Prop := L.Pairwise (fun a b => a.2 ≤ b.2)

theorem F_nil (p : Int) : F [] p = [] := rfl

theorem F_cons (x : Nat) (q : Int) (L : Q) (p : Int) : F ((x, q) :: L) p = if q = p then x :: F L p else F L p := by
  unfold F
  by_cases h : q = p <;> simp [List.filter_cons, h]

theorem F_append (A B : Q) (p : Int) : F (A ++ B) p = F A p ++ F B p := by simp [F]

theorem F_eq_nil {L : Q} {p : Int} : F L p = [] ↔ ∀ e ∈ L, e.2 ≠ p := by
  unfold F
  rw [List.map_eq_nil_iff, List.filter_eq_nil_iff]
  simp only [beq_iff_eq, ne_eq]

theorem mem_F {L : Q} {p : Int} {x : Nat} : x ∈ F L p ↔ (x, p) ∈ L := by
  unfold F
  simp only [List.mem_map, List.mem_filter, beq_iff_eq, Prod.exists, exists_and_right, exists_eq_right]

/-- the head of a sorted list is the head of the class of the smallest priority -/
theorem head_of_F {L : Q} {m : Int} {x : Nat} {t : List Nat} (hs : Sorted L) (hm : ∀ e ∈ L, m ≤ e.2) (h : F L m = x :: t) :
    ∃ L', L = (x, m) :: L' := by
  cases L with
  | nil => cases h
  | cons a L =>
    obtain ⟨y, q⟩ := a
    rw [F_cons] at h
    by_cases hq : q = m
    · rw [if_pos hq] at h
      cases h
      exact ⟨L, by rw [hq]⟩
    · rw [if_neg hq] at h
      exfalso
      have : (x, m) ∈ L := mem_F.mp (by rw [h]; simp)
      have h1 := (List.pairwise_cons.mp hs).1 _ this
      have h2 := hm (y, q) (by simp)
      simp only at h1 h2
      omega

theorem dropWhile_gt {L : Q} (hs : Sorted L) (p : Int) : ∀ e ∈ L.dropWhile (fun e => decide (e.2 ≤ p)), p < e.2 := by
  induction L with
  | nil => simp
  | cons a L ih =>
    have hs' := List.pairwise_cons.mp hs
    rw [List.dropWhile_cons]
    split
    · exact ih hs'.2
    next h =>
      simp only [decide_eq_true_eq, not_le] at h
      intro e he
      rcases List.mem_cons.mp he with q | q
      · rw [q]; exact h
      · have := hs'.1 e q; omega

theorem takeWhile_le (L : Q) (p : Int) : ∀ e ∈ L.takeWhile (fun e => decide (e.2 ≤ p)), e.2 ≤ p := by
  induction L with
  | nil => simp
  | cons a L ih =>
    rw [List.takeWhile_cons]
    split
    next h =>
      intro e he
      rcases List.mem_cons.mp he with q | q
      · rw [q]; simpa using h
      · exact ih e q
    next => simp

theorem F_ins {L : Q} (hs : Sorted L) (x : Nat) (p q : Int) : F (ins L x p) q = if q = p then F L p ++ [x] else F L q := by
  have hL : F L q = F (L.takeWhile (fun e => decide (e.2 ≤ p))) q ++ F (L.dropWhile (fun e => decide (e.2 ≤ p))) q := by
    rw [← F_append, List.takeWhile_append_dropWhile]
  unfold ins
  rw [F_append, F_cons]
  by_cases h : q = p
  · rw [if_pos h.symm, if_pos h, ← h, hL]
    have : F (L.dropWhile (fun e => decide (e.2 ≤ p))) q = [] := by
      rw [F_eq_nil]; intro e he
      have := dropWhile_gt hs p e he; omega
    rw [← h] at this ⊢
    rw [this]; simp
  · rw [if_neg (fun r => h r.symm), if_neg h, hL]

theorem mem_ins {L : Q} {x : Nat} {p : Int} {e : Nat × Int} : e ∈ ins L x p ↔ e = (x, p) ∨ e ∈ L := by
  have hL : e ∈ L ↔ e ∈ L.takeWhile (fun e => decide (e.2 ≤ p)) ∨ e ∈ L.dropWhile (fun e => decide (e.2 ≤ p)) := by
    rw [← List.mem_append, List.takeWhile_append_dropWhile]
  unfold ins
  rw [List.mem_append, List.mem_cons, hL]
  tauto

theorem ins_sorted {L : Q} (hs : Sorted L) (x : Nat) (p : Int) : Sorted (ins L x p) := by
  have h1 : Sorted (L.takeWhile (fun e => decide (e.2 ≤ p))) := hs.sublist (List.takeWhile_sublist _)
  have h2 : Sorted (L.dropWhile (fun e => decide (e.2 ≤ p))) := hs.sublist (List.dropWhile_sublist _)
  unfold Sorted ins
  rw [List.pairwise_append]
  refine ⟨h1, List.pairwise_cons.mpr ⟨?_, h2⟩, ?_⟩
  · intro e he; have := dropWhile_gt hs p e he; simp only; omega
  · intro a ha b hb
    have a1 := takeWhile_le L p a ha
    rcases List.mem_cons.mp hb with q | q
    · rw [q]; exact a1
    · have := dropWhile_gt hs p b q; omega

theorem ins_length (L : Q) (x : Nat) (p : Int) : (ins L x p).length = L.length + 1 := by
  unfold ins
  have : (L.takeWhile (fun e => decide (e.2 ≤ p)) ++ L.dropWhile (fun e => decide (e.2 ≤ p))).length = L.length := by
    rw [List.takeWhile_append_dropWhile]
  simp only [List.length_append, List.length_cons] at *
  omega

/-! ## representation -/

/-- bucket of priority `p` -/
def idx (b : SBuck) (p : Int) : Nat := (b.firstB + (p - b.firstP).toNat) % b.n

theorem idx_lt {b : SBuck} (hn : 0 < b.n) (p : Int) : b.idx p < b.n := Nat.mod_lt _ hn

theorem idx_inj {b : SBuck} {p q : Int} (h1 : b.firstP ≤ p) (h2 : p < b.firstP + b.n) (h3 : b.firstP ≤ q)
    (h4 : q < b.firstP + b.n) (h : b.idx p = b.idx q) : p = q := by
  unfold idx at h
  have a : (p - b.firstP).toNat < b.n := by omega
  have c : (q - b.firstP).toNat < b.n := by omega
  rcases Nat.lt_trichotomy (p - b.firstP).toNat (q - b.firstP).toNat with l | l | l
  · have := Nat.sub_mod_eq_zero_of_mod_eq h.symm
    rw [show b.firstB + (q - b.firstP).toNat - (b.firstB + (p - b.firstP).toNat) = (q - b.firstP).toNat - (p - b.firstP).toNat by omega,
      Nat.mod_eq_of_lt (by omega)] at this
    omega
  · omega
  · have := Nat.sub_mod_eq_zero_of_mod_eq h
    rw [show b.firstB + (p - b.firstP).toNat - (b.firstB + (q - b.firstP).toNat) = (p - b.firstP).toNat - (q - b.firstP).toNat by omega,
      Nat.mod_eq_of_lt (by omega)] at this
    omega

/-- bucket `k` holds the elements `l` from slot `lo` on -/
structure Slots (b : SBuck) (k lo : Nat) (l : List Nat) : Prop where
  before : ∀ i, i < lo → b.arr k i = none
  slot : ∀ i, b.arr k (lo + i) = l[i]?
  last : b.last k + 1 = lo + l.length
  cap : lo + l.length ≤ b.cap k
  bsz : lo + l.length ≤ b.bsz

/-- representation, the bucket of the smallest priority being consumed up to slot `lo` -/
structure RR (b : SBuck) (L : Q) (lo : Nat) : Prop where
  n0 : 0 < b.n
  bsz0 : 0 < b.bsz
  fb : b.firstB < b.n
  win1 : b.firstP ≤ b.minP
  win2 : b.minP ≤ b.maxP
  win3 : b.maxP < b.firstP + b.n
  mb : b.minB = b.idx b.minP
  sorted : Sorted L
  inL : ∀ e ∈ L, b.minP ≤ e.2 ∧ e.2 ≤ b.maxP
  slots : ∀ p, b.firstP ≤ p → p < b.firstP + b.n → Slots b (b.idx p) (if p = b.minP then lo else 0) (F L p)
  max : b.minP < b.maxP → ∃ e ∈ L, e.2 = b.maxP
  ind : (b.minI = lo ∧ (lo = 0 ∨ F L b.minP ≠ [])) ∨ b.minI = (lo : Int) - 1
  zero : 0 < lo → b.minP = b.firstP
  emp : L = [] → b.minP = b.firstP
  capf : b.dyn = 0 → ∀ k, b.cap k = 0 ∨ b.cap k = b.bsz

/-- the index between operations -/
def Idle (b : SBuck) (L : Q) (lo : Nat) : Prop :=
  (b.minI = -1 ∧ lo = 0 ∧ F L b.minP = [] ∧ b.minP = b.firstP) ∨ (b.minI = lo ∧ F L b.minP ≠ [])

/-- representation between operations -/
def R (b : SBuck) (L : Q) : Prop := ∃ lo, RR b L lo ∧ Idle b L lo

theorem RR.empty_iff {b : SBuck} {L : Q} {lo : Nat} (r : RR b L lo)
    (h : Idle b L lo) : b.isEmpty = true ↔ L = [] := by
  unfold isEmpty
  simp only [Bool.and_eq_true, beq_iff_eq]
  constructor
  · rintro ⟨h1, h2⟩
    rcases h with ⟨_, _, hF, _⟩ | ⟨h3, _⟩
    · rw [List.eq_nil_iff_forall_not_mem]
      intro e he
      have a := r.inL e he
      exact F_eq_nil.mp hF e he (by omega)
    · omega
  · intro hL
    rw [hL] at h
    rcases h with ⟨h1, _, _, _⟩ | ⟨_, h4⟩
    · refine ⟨h1, ?_⟩
      by_contra q
      have := r.win2
      obtain ⟨e, he, _⟩ := r.max (by omega)
      rw [hL] at he; cases he
    · exact absurd (F_nil _) h4

theorem R.empty_iff {b : SBuck} {L : Q} (r : R b L) : b.isEmpty = true ↔ L = [] := by
  obtain ⟨lo, r, h⟩ := r
  exact r.empty_iff h

/-- reading the slot of the minimum -/
theorem RR.read {b : SBuck} {L : Q} {lo : Nat} (r : RR b L lo) :
    (if b.minI = -1 then .ok none else b.read b.minB b.minI) =
      (Except.ok (if b.minI = lo then (F L b.minP).head? else none) : Except SBErr (Option Nat)) := by
  have sl := r.slots b.minP r.win1 (by have := r.win2; have := r.win3; omega)
  rw [if_pos rfl, ← r.mb] at sl
  have rd := r.ind
  split
  next q => rw [if_neg (by omega)]
  next q =>
    unfold SBuck.read
    have hcap := sl.cap
    split
    next hc =>
      congr 1
      have hF : F L b.minP = [] := by
        rw [← List.length_eq_zero_iff]; omega
      rw [hF]; simp
    next hc =>
      have hlast := sl.last
      by_cases e : b.minI = lo
      · have hl : (b.minI : Int) < b.cap b.minB := by
          rcases rd with ⟨_, r0 | r0⟩ | r0
          · omega
          · have := List.length_pos_iff.mpr r0; omega
          · omega
        rw [if_pos ⟨by omega, hl⟩, if_pos e]
        congr 1
        have := sl.slot 0
        rw [show b.minI.toNat = lo + 0 by omega, this, List.head?_eq_getElem?]
      · have e2 : b.minI = (lo : Int) - 1 := by omega
        rw [if_pos ⟨by omega, by omega⟩, if_neg e]
        congr 1
        exact sl.before _ (by omega)

theorem RR.full {b : SBuck} {L : Q} {lo : Nat} (r : RR b L lo) (h : F L b.minP ≠ []) :
    ∃ x L', L = (x, b.minP) :: L' ∧ (F L b.minP).head? = some x := by
  cases e : F L b.minP with
  | nil => exact absurd e h
  | cons x t =>
    obtain ⟨L', hL⟩ := head_of_F r.sorted (fun e he => (r.inL e he).1) e
    exact ⟨x, L', hL, rfl⟩

theorem idx_succ {b : SBuck} (h : b.firstP ≤ b.minP) : (b.idx b.minP + 1) % b.n = b.idx (b.minP + 1) := by
  unfold idx
  rw [show (b.minP + 1 - b.firstP).toNat = (b.minP - b.firstP).toNat + 1 by omega, ← Nat.add_assoc, Nat.mod_add_mod]

/-- what an operation may do to the counters: they are kept or reset -/
def LastOk (b b' : SBuck) : Prop := ∀ k, b'.last k = b.last k ∨ b'.last k = -1

/-- the loop looking for the minimum finds the head of the list -/
theorem scan_ok (fuel : Nat) : ∀ {b : SBuck} {L : Q} {lo : Nat}, RR b L lo →
    (b.maxP - b.minP).toNat * (b.bsz + 2) + (b.last b.minB - b.minI).toNat + 1 ≤ fuel →
    ∃ b', scan fuel b = .ok ((L.head?).map Prod.fst, b') ∧ R b' L ∧ b'.n = b.n ∧ b'.bsz = b.bsz ∧ b'.firstP = b.firstP ∧
      b'.firstB = b.firstB ∧ LastOk b b' ∧ b'.dyn = b.dyn ∧ (b'.maxP = b.maxP) := by
  induction fuel with
  | zero => intro b L lo _ h; omega
  | succ fuel ih =>
    intro b L lo r hf
    have sl := r.slots b.minP r.win1 (by have := r.win2; have := r.win3; omega)
    rw [if_pos rfl, ← r.mb] at sl
    have hlast := sl.last
    have hbsz := sl.bsz
    unfold scan
    rw [r.read]
    by_cases hfull : b.minI = lo ∧ F L b.minP ≠ []
    · obtain ⟨x, L', hL, hx⟩ := r.full hfull.2
      rw [if_pos hfull.1, hx]
      refine ⟨b, ?_, ⟨lo, r, .inr ⟨hfull.1, hfull.2⟩⟩, rfl, rfl, rfl, rfl, fun k => .inl rfl, rfl, rfl⟩
      rw [hL]; rfl
    · have hn : (if b.minI = lo then (F L b.minP).head? else none) = none := by
        split
        next q =>
          have : F L b.minP = [] := by by_contra q2; exact hfull ⟨q, q2⟩
          rw [this]; rfl
        next => rfl
      rw [hn]
      dsimp only
      by_cases hlt : b.minI < b.last b.minB
      · rw [if_pos hlt]
        -- the next slot of the same bucket
        have hm1 : b.minI = (lo : Int) - 1 := by
          rcases r.ind with ⟨q, q2⟩ | q
          · exfalso
            have : F L b.minP = [] := by by_contra q3; exact hfull ⟨q, q3⟩
            rw [this] at hlast
            simp at hlast; omega
          · exact q
        have hne : F L b.minP ≠ [] := by
          intro q; rw [q] at hlast; simp at hlast; omega
        obtain ⟨b', h1, h2, h3, h4, h5, h6, h7, h8⟩ := ih (b := { b with minI := b.minI + 1 }) (L := L) (lo := lo)
          ⟨r.n0, r.bsz0, r.fb, r.win1, r.win2, r.win3, r.mb, r.sorted, r.inL,
            fun p a c => ⟨(r.slots p a c).before, (r.slots p a c).slot, (r.slots p a c).last, (r.slots p a c).cap, (r.slots p a c).bsz⟩,
            r.max, .inl ⟨by show b.minI + 1 = _; omega, .inr hne⟩, r.zero, r.emp, r.capf⟩
          (by show (b.maxP - b.minP).toNat * (b.bsz + 2) + (b.last b.minB - (b.minI + 1)).toNat + 1 ≤ fuel; omega)
        exact ⟨b', h1, h2, h3, h4, h5, h6, h7, h8⟩
      · rw [if_neg hlt]
        -- the bucket is exhausted
        have hF : F L b.minP = [] := by
          rw [← List.length_eq_zero_iff]
          rcases r.ind with ⟨q, q2⟩ | q
          · by_contra q3
            exact hfull ⟨q, fun q4 => q3 (by rw [q4]; rfl)⟩
          · omega
        have hlast1 : ∀ k, upd b.last b.minB (-1) k = b.last k ∨ upd b.last b.minB (-1) k = -1 := by
          intro k
          by_cases q : k = b.minB
          · right; rw [q, upd_same]
          · left; rw [upd_other _ _ q]
        have hslots : ∀ p, b.firstP ≤ p → p < b.firstP + b.n → ∀ b2 : SBuck, b2.arr = b.arr → b2.cap = b.cap → b2.bsz = b.bsz →
            b2.last = upd b.last b.minB (-1) → Slots b2 (b.idx p) 0 (F L p) := by
          intro p h1 h2 b2 e1 e2 e3 e4
          have s := r.slots p h1 h2
          by_cases q : p = b.minP
          · rw [q, ← r.mb, hF]
            refine ⟨by intro i hi; omega, ?_, ?_, ?_, ?_⟩
            · intro i
              rw [e1]
              by_cases q2 : 0 + i < lo
              · rw [sl.before _ q2]; simp
              · have := sl.slot (0 + i - lo)
                rw [show lo + (0 + i - lo) = 0 + i by omega, hF] at this
                rw [this]; simp
            · rw [e4, upd_same]; rfl
            · simp
            · simp
          · rw [if_neg q] at s
            have hk : b.idx p ≠ b.minB := by
              rw [r.mb]
              intro q2
              exact q (idx_inj h1 h2 r.win1 (by have := r.win2; have := r.win3; omega) q2)
            refine ⟨by intro i hi; omega, ?_, ?_, ?_, ?_⟩
            · intro i; rw [e1]; exact s.slot i
            · rw [e4, upd_other _ _ hk]; exact s.last
            · rw [e2]; exact s.cap
            · rw [e3]; exact s.bsz
        by_cases hend : b.minP = b.maxP
        · rw [if_pos hend]
          have hL : L = [] := by
            rw [List.eq_nil_iff_forall_not_mem]
            intro e he
            have a := r.inL e he
            exact F_eq_nil.mp hF e he (by omega)
          refine ⟨{ b with last := upd b.last b.minB (-1), minI := -1 }, by rw [hL]; rfl, ⟨0, ?_, .inl ⟨rfl, rfl, hF, r.emp hL⟩⟩, rfl, rfl,
            rfl, rfl, hlast1, rfl, rfl⟩
          refine ⟨r.n0, r.bsz0, r.fb, r.win1, r.win2, r.win3, r.mb, r.sorted, r.inL, ?_, r.max, .inr rfl, by intro q; omega, r.emp, r.capf⟩
          intro p h1 h2
          have := hslots p h1 h2 { b with last := upd b.last b.minB (-1), minI := -1 } rfl rfl rfl rfl
          show Slots _ (b.idx p) (if p = b.minP then 0 else 0) (F L p)
          split <;> exact this
        · rw [if_neg hend]
          have hmb : (b.minB + 1) % b.n = b.idx (b.minP + 1) := by rw [r.mb]; exact idx_succ r.win1
          have w1 := r.win1
          have w2 := r.win2
          have w3 := r.win3
          have r2 : RR { b with last := upd b.last b.minB (-1), minB := (b.minB + 1) % b.n, minI := 0, minP := b.minP + 1 } L 0 := by
            refine ⟨r.n0, r.bsz0, r.fb, ?_, ?_, r.win3, hmb, r.sorted, ?_, ?_, ?_, .inl ⟨rfl, .inl rfl⟩, by intro q; omega, ?_, r.capf⟩
            · show b.firstP ≤ b.minP + 1; omega
            · show b.minP + 1 ≤ b.maxP; omega
            · intro e he
              have a := r.inL e he
              have c := F_eq_nil.mp hF e he
              exact ⟨by show b.minP + 1 ≤ e.2; omega, a.2⟩
            · intro p h1 h2
              have := hslots p h1 h2 { b with last := upd b.last b.minB (-1), minB := (b.minB + 1) % b.n, minI := 0, minP := b.minP + 1 }
                rfl rfl rfl rfl
              show Slots _ (b.idx p) (if p = b.minP + 1 then 0 else 0) (F L p)
              split <;> exact this
            · intro _; exact r.max (by omega)
            · intro hL
              obtain ⟨e, he, _⟩ := r.max (by omega)
              rw [hL] at he; cases he
          have hlast2 : upd b.last b.minB (-1) ((b.minB + 1) % b.n) ≤ (b.bsz : Int) - 1 := by
            rcases hlast1 ((b.minB + 1) % b.n) with q | q
            · rw [q, hmb]
              have := r.slots (b.minP + 1) (by omega) (by omega)
              have h1 := this.last
              have h2 := this.bsz
              omega
            · rw [q]; omega
          obtain ⟨b', h1, h2, h3, h4, h5, h6, h7, h8⟩ := ih r2 (by
            show (b.maxP - (b.minP + 1)).toNat * (b.bsz + 2) + (upd b.last b.minB (-1) ((b.minB + 1) % b.n) - 0).toNat + 1 ≤ fuel
            have hd : (b.maxP - b.minP).toNat = (b.maxP - (b.minP + 1)).toNat + 1 := by omega
            rw [hd, Nat.add_mul] at hf
            omega)
          refine ⟨b', h1, h2, h3, h4, h5, h6, ?_, h8⟩
          intro k
          rcases h7 k with q | q
          · rw [q]; exact hlast1 k
          · exact .inr q

/-- a scan that returns an element leaves the index on it -/
theorem scan_min (fuel : Nat) : ∀ {b b' : SBuck} {x : Nat}, scan fuel b = .ok (some x, b') → b'.minI ≠ -1 := by
  induction fuel with
  | zero => intro b b' x h; cases h
  | succ fuel ih =>
    intro b b' x h
    unfold scan at h
    split at h
    · cases h
    next y hy =>
      cases h
      intro hI
      rw [if_pos hI] at hy; cases hy
    · split at h
      · exact ih h
      · split at h
        · cases h
        · exact ih h

/-- fields that never change, and the counters -/
structure Same (b b' : SBuck) : Prop where
  n : b'.n = b.n
  bsz : b'.bsz = b.bsz
  dyn : b'.dyn = b.dyn
  last : LastOk b b'

theorem recompute_ok {b : SBuck} {L : Q} {lo : Nat} (r : RR b L lo) (h : b.isEmpty = false) :
    ∃ b', b.recompute = .ok ((L.head?).map Prod.fst, b') ∧ R b' L ∧ Same b b' ∧ b'.firstP = b.firstP ∧ b'.firstB = b.firstB ∧
      (L ≠ [] → b'.minI ≠ -1) := by
  have sl := r.slots b.minP r.win1 (by have := r.win2; have := r.win3; omega)
  rw [if_pos rfl, ← r.mb] at sl
  have h1 := sl.last
  have h2 := sl.bsz
  have h3 := r.ind
  unfold recompute
  rw [if_neg (by simp [h])]
  obtain ⟨b', e, a1, a2, a3, a4, a5, a6, a7, a8⟩ := scan_ok ((b.maxP - b.minP).toNat * (b.bsz + 2) + b.bsz + 2) r (by omega)
  refine ⟨b', e, a1, ⟨a2, a3, a7, a6⟩, a4, a5, fun hL => ?_⟩
  cases L with
  | nil => exact absurd rfl hL
  | cons a L => exact scan_min _ e

/-- getminelement returns the head of the list -/
theorem getMin_ok {b : SBuck} {L : Q} (r : R b L) :
    ∃ b', b.getMin = .ok ((L.head?).map Prod.fst, b') ∧ R b' L ∧ Same b b' ∧ b'.firstP = b.firstP ∧ b'.firstB = b.firstB ∧
      (L ≠ [] → b'.minI ≠ -1) ∧ (L = [] → b' = b) := by
  have hem := r.empty_iff
  obtain ⟨lo, r, hid⟩ := r
  unfold getMin
  by_cases h : b.isEmpty = true
  · rw [if_pos h, hem.mp h]
    rw [hem.mp h] at r hid
    exact ⟨b, rfl, ⟨lo, r, hid⟩, ⟨rfl, rfl, rfl, fun _ => .inl rfl⟩, rfl, rfl, fun q => absurd rfl q, fun _ => rfl⟩
  · rw [if_neg h, r.read]
    rcases hid with ⟨h1, h2, h3, h4⟩ | ⟨h1, h2⟩
    · rw [if_neg (by omega)]
      obtain ⟨b', q1, q2, q3, q4, q5, q6⟩ := recompute_ok r (by simpa using h)
      exact ⟨b', q1, q2, q3, q4, q5, q6, fun q => absurd (hem.mpr q) h⟩
    · obtain ⟨x, L', hL, hx⟩ := r.full h2
      rw [if_pos h1, hx]
      refine ⟨b, by rw [hL]; rfl, ⟨lo, r, .inr ⟨h1, h2⟩⟩, ⟨rfl, rfl, rfl, fun _ => .inl rfl⟩, rfl, rfl, fun _ => by omega, fun _ => rfl⟩

/-- popminelement takes the head off the list; its priority becomes the start of the window -/
theorem pop_ok {b : SBuck} {x : Nat} {p : Int} {L : Q} (r : R b ((x, p) :: L)) :
    ∃ b', b.pop = .ok (some x, b') ∧ R b' L ∧ Same b b' ∧ b'.firstP = p ∧ b'.firstB = b.idx p ∧ (L ≠ [] → b'.minI ≠ -1) := by
  have hem : b.isEmpty = false := by
    rw [Bool.eq_false_iff]; intro h; exact absurd (r.empty_iff.mp h) (by simp)
  obtain ⟨b1, e1, r1, s1, f1, fb1, _, _⟩ := getMin_ok r
  unfold pop
  rw [if_neg (by simp [hem]), e1]
  dsimp only
  obtain ⟨lo, rr, hid⟩ := r1
  -- the minimum has been located
  have hhead : b1.minI = lo ∧ F ((x, p) :: L) b1.minP ≠ [] := by
    rcases hid with ⟨h1, h2, h3, h4⟩ | h
    · exfalso
      -- the index is only undefined if getMin did not look for the minimum
      unfold getMin at e1
      rw [if_neg (by simp [hem])] at e1
      obtain ⟨lo0, rr0, hid0⟩ := r
      rw [rr0.read] at e1
      rcases hid0 with ⟨k1, k2, k3, k4⟩ | ⟨k1, k2⟩
      · rw [if_neg (by omega)] at e1
        dsimp only at e1
        unfold recompute at e1
        rw [if_neg (by simp [hem])] at e1
        -- the scan ends at an element
        exact scan_min _ e1 h1
      · obtain ⟨x', L', hL, hx⟩ := rr0.full k2
        rw [if_pos k1, hx] at e1
        cases e1
        omega
    · exact h
  obtain ⟨hI, hF⟩ := hhead
  obtain ⟨x', L', hL, hx⟩ := rr.full hF
  have hp : p = b1.minP := by cases hL; rfl
  have hw1 := rr.win1
  have hw2 := rr.win2
  have hw3 := rr.win3
  have sl := rr.slots b1.minP rr.win1 (by omega)
  rw [if_pos rfl, ← rr.mb] at sl
  have hFc : F ((x, p) :: L) b1.minP = x :: F L b1.minP := by rw [F_cons, if_pos hp]
  have hcap := sl.cap
  rw [hFc] at hcap
  simp only [List.length_cons] at hcap
  rw [if_pos ⟨by omega, by omega⟩]
  generalize hb2 : ({ b1 with arr := upd b1.arr b1.minB (upd (b1.arr b1.minB) b1.minI.toNat none), firstB := b1.minB,
                              firstP := b1.minP } : SBuck) = b2
  have r2 : RR b2 L (lo + 1) := by
    subst hb2
    have hs := List.pairwise_cons.mp rr.sorted
    have idx_same : ∀ q, b1.minP ≤ q → (b1.minB + (q - b1.minP).toNat) % b1.n = b1.idx q := by
      intro q hq
      rw [rr.mb]
      unfold idx
      rw [Nat.mod_add_mod, show (q - b1.firstP).toNat = (b1.minP - b1.firstP).toNat + (q - b1.minP).toNat by omega, ← Nat.add_assoc]
    refine ⟨rr.n0, rr.bsz0, by show b1.minB < b1.n; rw [rr.mb]; exact idx_lt rr.n0 _, le_refl _, rr.win2, ?_, ?_, hs.2, ?_, ?_, ?_,
      .inr (by show b1.minI = _; push_cast; omega), fun _ => rfl, fun _ => rfl, rr.capf⟩
    · show b1.maxP < b1.minP + b1.n; omega
    · show b1.minB = (b1.minB + (b1.minP - b1.minP).toNat) % b1.n
      rw [idx_same b1.minP (le_refl _)]; exact rr.mb
    · intro e he; exact rr.inL e (by simp [he])
    · intro q h1 h2
      change b1.minP ≤ q at h1
      change q < b1.minP + b1.n at h2
      show Slots _ ((b1.minB + (q - b1.minP).toNat) % b1.n) (if q = b1.minP then lo + 1 else 0) (F L q)
      rw [idx_same q h1]
      by_cases hq : q = b1.minP
      · rw [if_pos hq, hq, ← rr.mb]
        have len : (F ((x, p) :: L) b1.minP).length = (F L b1.minP).length + 1 := by rw [hFc]; rfl
        refine ⟨?_, ?_, ?_, ?_, ?_⟩
        · intro i hi
          show upd b1.arr b1.minB (upd (b1.arr b1.minB) b1.minI.toNat none) b1.minB i = none
          rw [upd_same]
          by_cases h3 : i = b1.minI.toNat
          · rw [h3, upd_same]
          · rw [upd_other _ _ h3]; exact sl.before i (by omega)
        · intro i
          show upd b1.arr b1.minB (upd (b1.arr b1.minB) b1.minI.toNat none) b1.minB (lo + 1 + i) = _
          rw [upd_same, upd_other _ _ (by omega)]
          have := sl.slot (i + 1)
          rw [hFc] at this
          rw [show lo + 1 + i = lo + (i + 1) by omega, this]; simp
        · show b1.last b1.minB + 1 = _
          have := sl.last
          rw [len] at this
          push_cast at this ⊢; omega
        · show lo + 1 + _ ≤ b1.cap b1.minB; omega
        · have := sl.bsz
          rw [len] at this
          show lo + 1 + _ ≤ b1.bsz; omega
      · rw [if_neg hq]
        have hpq : ¬ p = q := by rw [hp]; exact fun r => hq r.symm
        by_cases h3 : q < b1.firstP + b1.n
        · have s := rr.slots q (by omega) h3
          rw [if_neg hq, F_cons, if_neg hpq] at s
          have hk : b1.idx q ≠ b1.minB := by
            rw [rr.mb]
            intro q2
            exact hq (idx_inj (by omega) h3 rr.win1 (by omega) q2)
          refine ⟨by intro i hi; omega, ?_, s.last, s.cap, s.bsz⟩
          intro i
          show upd b1.arr b1.minB _ (b1.idx q) (0 + i) = _
          rw [upd_other _ _ hk]; exact s.slot i
        · -- a bucket that has slid from the start to the end of the window
          have s := rr.slots (q - b1.n) (by omega) (by omega)
          have hne : q - b1.n ≠ b1.minP := by omega
          have hidx : b1.idx (q - b1.n) = b1.idx q := by
            unfold idx
            rw [show (q - b1.firstP).toNat = (q - b1.n - b1.firstP).toNat + b1.n by omega, ← Nat.add_assoc, Nat.add_mod_right]
          have e1 : F ((x, p) :: L) (q - b1.n) = [] := by
            rw [F_eq_nil]; intro e he
            have := rr.inL e he; omega
          have e2 : F L q = [] := by
            rw [F_eq_nil]; intro e he
            have := rr.inL e (by simp [he]); omega
          rw [if_neg hne, hidx, e1] at s
          rw [e2]
          have hk : b1.idx q ≠ b1.minB := by
            rw [rr.mb, ← hidx]
            intro q2
            exact hne (idx_inj (by omega) (by omega) rr.win1 (by omega) q2)
          refine ⟨by intro i hi; omega, ?_, s.last, s.cap, s.bsz⟩
          intro i
          show upd b1.arr b1.minB _ (b1.idx q) (0 + i) = _
          rw [upd_other _ _ hk]; exact s.slot i
    · intro h
      obtain ⟨e, he, h2⟩ := rr.max h
      rcases List.mem_cons.mp he with q | q
      · rw [q] at h2; simp only at h2; change b1.minP < b1.maxP at h; omega
      · exact ⟨e, q, h2⟩
  obtain ⟨b3, e3, r3, s3, f3, fb3, mi3⟩ := recompute_ok r2 (by
    subst hb2
    unfold isEmpty
    simp only [Bool.and_eq_false_imp, beq_iff_eq]
    intro h; omega)
  rw [e3]
  refine ⟨b3, rfl, r3, ⟨?_, ?_, ?_, ?_⟩, ?_, ?_, mi3⟩
  · rw [s3.n, ← s1.n]; subst hb2; rfl
  · rw [s3.bsz, ← s1.bsz]; subst hb2; rfl
  · rw [s3.dyn, ← s1.dyn]; subst hb2; rfl
  · intro k
    have h1 : b2.last k = b1.last k := by subst hb2; rfl
    rcases s3.last k with q | q
    · rw [q, h1]; exact s1.last k
    · exact .inr q
  · rw [f3, hp]; subst hb2; rfl
  · have h1 : b2.firstB = b1.minB := by subst hb2; rfl
    rw [fb3, h1, rr.mb, hp]
    unfold idx
    rw [fb1, f1, s1.n]

theorem pop_empty {b : SBuck} (r : R b []) : b.pop = .ok (none, b) := by
  unfold pop; rw [if_pos (r.empty_iff.mpr rfl)]

/-- insert puts the element after all those of smaller or equal priority -/
theorem insert_ok {b : SBuck} {L : Q} (r : R b L) (x : Nat) {p : Int} (h1 : b.firstP ≤ p) (h2 : p < b.firstP + b.n)
    (h3 : b.last (b.idx p) + 1 < b.bsz) :
    ∃ b', b.insert x p = .ok b' ∧ R b' (ins L x p) ∧ b'.n = b.n ∧ b'.bsz = b.bsz ∧ b'.dyn = b.dyn ∧ b'.firstP = b.firstP ∧
      b'.firstB = b.firstB ∧ b'.last = upd b.last (b.idx p) (b.last (b.idx p) + 1) ∧
      (b'.minI = -1 ↔ b.minI = -1 ∧ p ≠ b.firstP) := by
  obtain ⟨lo, r, hid⟩ := r
  have w1 := r.win1
  have w2 := r.win2
  have w3 := r.win3
  have s := r.slots p h1 h2
  have sl := s.last
  have sc := s.cap
  generalize hlp : (if p = b.minP then lo else 0) = lp at s sl sc
  unfold insert
  dsimp only
  rw [if_neg (by omega)]
  change ∃ b', (if b.last (b.idx p) + 1 = b.bsz then _ else _) = _ ∧ _
  rw [if_neg (by omega)]
  change ∃ b', (if 0 ≤ b.last (b.idx p) + 1 ∧ b.last (b.idx p) + 1 < (b.newCap (b.idx p) (b.last (b.idx p) + 1) : Int) then
      Except.ok ({ b with
          cap := upd b.cap (b.idx p) (b.newCap (b.idx p) (b.last (b.idx p) + 1))
          arr := upd b.arr (b.idx p) (upd (b.arr (b.idx p)) (b.last (b.idx p) + 1).toNat (some x))
          last := upd b.last (b.idx p) (b.last (b.idx p) + 1)
          maxP := if p > b.maxP then p else b.maxP
          minP := if p < b.minP then p else b.minP
          minB := if p < b.minP then b.idx p else b.minB
          minI := if (if p < b.minP then b.idx p else b.minB) = b.idx p ∧ b.minI = -1 then 0 else b.minI } : SBuck) else _) = _ ∧ _
  generalize hc1 : b.newCap (b.idx p) (b.last (b.idx p) + 1) = c1
  unfold newCap at hc1
  dsimp only at hc1
  generalize hc0 : (if b.cap (b.idx p) = 0 then (if b.dyn ≠ 0 then b.dyn else b.bsz) else b.cap (b.idx p)) = c0 at hc1
  have bs := r.bsz0
  have hcap : b.last (b.idx p) + 1 < (c1 : Int) ∧ b.cap (b.idx p) ≤ c1 := by
    by_cases q : b.cap (b.idx p) = 0
    · rw [if_pos q] at hc0
      by_cases q2 : b.dyn ≠ 0
      · rw [if_pos q2] at hc0
        rw [if_neg (by omega)] at hc1
        omega
      · rw [if_neg q2] at hc0
        rw [if_neg (fun h => q2 h.1)] at hc1
        omega
    · rw [if_neg q] at hc0
      by_cases q2 : b.dyn ≠ 0
      · by_cases q3 : b.last (b.idx p) + 1 ≥ (c0 : Int)
        · rw [if_pos ⟨q2, q3⟩] at hc1
          have : min (c0 * 2) b.bsz ≠ c0 := by omega
          rw [if_pos this] at hc1
          omega
        · rw [if_neg (fun h => q3 h.2)] at hc1
          omega
      · rw [if_neg (fun h => q2 h.1)] at hc1
        rcases r.capf (by omega) (b.idx p) with q4 | q4
        · exact absurd q4 q
        · omega
  have capf' : b.dyn = 0 → c1 = b.bsz := by
    intro q
    rw [if_neg (fun h => h.1 q)] at hc1
    rcases r.capf q (b.idx p) with q4 | q4
    · rw [if_pos q4, if_neg (fun h => h q)] at hc0; omega
    · rw [if_neg (by omega)] at hc0; omega
  rw [if_pos ⟨by omega, hcap.1⟩]
  refine ⟨_, rfl, ?_, rfl, rfl, rfl, rfl, rfl, rfl, ?_⟩
  swap
  · show (if (if p < b.minP then b.idx p else b.minB) = b.idx p ∧ b.minI = -1 then 0 else b.minI) = -1 ↔ _
    by_cases hm : b.minI = -1
    · have hmp : b.minP = b.firstP := by
        rcases hid with ⟨_, _, _, h4⟩ | ⟨h4, _⟩
        · exact h4
        · omega
      rw [if_neg (show ¬ p < b.minP by omega), r.mb, hmp]
      by_cases hp : p = b.firstP
      · rw [hp, if_pos ⟨rfl, hm⟩]; simp
      · rw [if_neg (fun q => hp (idx_inj h1 h2 (le_refl _) (by have := r.n0; omega) q.1.symm))]
        simp [hm, hp]
    · rw [if_neg (fun q => hm q.2)]; simp [hm]
  -- contents of the buckets
  have slots' : ∀ q, b.firstP ≤ q → q < b.firstP + b.n → ∀ (lq : Nat), Slots b (b.idx q) lq (F L q) → ∀ b2 : SBuck,
      b2.arr = upd b.arr (b.idx p) (upd (b.arr (b.idx p)) (b.last (b.idx p) + 1).toNat (some x)) →
      b2.cap = upd b.cap (b.idx p) c1 → b2.bsz = b.bsz → b2.last = upd b.last (b.idx p) (b.last (b.idx p) + 1) →
      Slots b2 (b.idx q) lq (F (ins L x p) q) := by
    intro q g1 g2 lq sq b2 e1 e2 e3 e4
    rw [F_ins r.sorted]
    by_cases hq : q = p
    · rw [if_pos hq]
      rw [hq] at sq ⊢
      have ql := sq.last
      refine ⟨?_, ?_, ?_, ?_, ?_⟩
      · intro i hi
        rw [e1, upd_same, upd_other _ _ (by omega)]; exact sq.before i hi
      · intro i
        rw [e1, upd_same]
        by_cases hi : i = (F L p).length
        · rw [show lq + i = (b.last (b.idx p) + 1).toNat by omega, upd_same, hi]; simp
        · rw [upd_other _ _ (by omega), sq.slot i]
          by_cases hi2 : i < (F L p).length
          · rw [List.getElem?_append_left hi2]
          · rw [List.getElem?_eq_none (by omega), List.getElem?_eq_none (by simp; omega)]
      · rw [e4, upd_same]; simp; omega
      · rw [e2, upd_same]; simp; omega
      · rw [e3]; simp; omega
    · rw [if_neg hq]
      have hk : b.idx q ≠ b.idx p := fun h => hq (idx_inj g1 g2 h1 h2 h)
      refine ⟨?_, ?_, ?_, ?_, ?_⟩
      · intro i hi; rw [e1, upd_other _ _ hk]; exact sq.before i hi
      · intro i; rw [e1, upd_other _ _ hk]; exact sq.slot i
      · rw [e4, upd_other _ _ hk]; exact sq.last
      · rw [e2, upd_other _ _ hk]; exact sq.cap
      · rw [e3]; exact sq.bsz
  have hcapf : b.dyn = 0 → ∀ k, upd b.cap (b.idx p) c1 k = 0 ∨ upd b.cap (b.idx p) c1 k = b.bsz := by
    intro q k
    by_cases hk : k = b.idx p
    · right; rw [hk, upd_same]; exact capf' q
    · rw [upd_other _ _ hk]; exact r.capf q k
  have hsorted := ins_sorted r.sorted x p
  have hin : ∀ e ∈ ins L x p, (if p < b.minP then p else b.minP) ≤ e.2 ∧ e.2 ≤ (if p > b.maxP then p else b.maxP) := by
    intro e he
    rcases mem_ins.mp he with q | q
    · rw [q]; simp only; split <;> split <;> omega
    · have := r.inL e q; split <;> split <;> omega
  have hwin : b.firstP ≤ (if p < b.minP then p else b.minP) ∧ (if p < b.minP then p else b.minP) ≤ (if p > b.maxP then p else b.maxP) ∧
      (if p > b.maxP then p else b.maxP) < b.firstP + b.n := by split <;> split <;> omega
  have hmb : (if p < b.minP then b.idx p else b.minB) = b.idx (if p < b.minP then p else b.minP) := by
    split
    · rfl
    · exact r.mb
  by_cases hA : p < b.minP
  · -- a new minimum
    have lo0 : lo = 0 := by
      by_contra q
      have := r.zero (by omega); omega
    have hmi : b.minI = 0 ∧ F L b.minP ≠ [] := by
      rcases hid with ⟨_, _, _, q⟩ | ⟨q, q2⟩
      · omega
      · exact ⟨by omega, q2⟩
    have hFp : F L p = [] := by
      rw [F_eq_nil]; intro e he; have := r.inL e he; omega
    refine ⟨0, ⟨r.n0, r.bsz0, r.fb, hwin.1, hwin.2.1, hwin.2.2, hmb, hsorted, hin, ?_, ?_, ?_, by intro q; omega, ?_, hcapf⟩, ?_⟩
    · intro q g1 g2
      have sq := r.slots q g1 g2
      rw [lo0] at sq
      have : (if q = b.minP then 0 else 0) = 0 := by split <;> rfl
      rw [this] at sq
      rw [ite_self]
      refine slots' q g1 g2 0 sq _ ?_ ?_ ?_ ?_ <;> rfl
    · intro _
      show ∃ e ∈ ins L x p, e.2 = if p > b.maxP then p else b.maxP
      rw [if_neg (by omega)]
      by_cases q : b.minP < b.maxP
      · obtain ⟨e, he, h⟩ := r.max q
        exact ⟨e, mem_ins.mpr (.inr he), h⟩
      · by_contra q2
        apply hmi.2
        rw [F_eq_nil]
        intro e he h
        exact q2 ⟨e, mem_ins.mpr (.inr he), by omega⟩
    · left
      refine ⟨?_, .inl rfl⟩
      show (if (if p < b.minP then b.idx p else b.minB) = b.idx p ∧ b.minI = -1 then 0 else b.minI) = _
      rw [if_neg (by omega), hmi.1]; rfl
    · intro h; have := ins_length L x p; rw [h] at this; simp at this
    · right
      refine ⟨?_, ?_⟩
      · show (if (if p < b.minP then b.idx p else b.minB) = b.idx p ∧ b.minI = -1 then 0 else b.minI) = _
        rw [if_neg (by omega), hmi.1]; rfl
      · show F (ins L x p) (if p < b.minP then p else b.minP) ≠ []
        rw [if_pos hA, F_ins r.sorted, if_pos rfl]; simp
  · have e1 : (if p < b.minP then p else b.minP) = b.minP := if_neg hA
    have e2 : (if p < b.minP then b.idx p else b.minB) = b.minB := if_neg hA
    have hmax : b.minP < (if p > b.maxP then p else b.maxP) → ∃ e ∈ ins L x p, e.2 = if p > b.maxP then p else b.maxP := by
      intro h
      split at h
      next q => exact ⟨(x, p), mem_ins.mpr (.inl rfl), by rw [if_pos q]⟩
      next q =>
        obtain ⟨e, he, h⟩ := r.max h
        exact ⟨e, mem_ins.mpr (.inr he), by rw [if_neg q]; exact h⟩
    have hemp : ins L x p = [] → b.minP = b.firstP := by
      intro h; have := ins_length L x p; rw [h] at this; simp at this
    have hsl : ∀ b2 : SBuck, b2.arr = upd b.arr (b.idx p) (upd (b.arr (b.idx p)) (b.last (b.idx p) + 1).toNat (some x)) →
      b2.cap = upd b.cap (b.idx p) c1 → b2.bsz = b.bsz → b2.last = upd b.last (b.idx p) (b.last (b.idx p) + 1) →
      ∀ q, b.firstP ≤ q → q < b.firstP + b.n → Slots b2 (b.idx q) (if q = b.minP then lo else 0) (F (ins L x p) q) :=
      fun b2 a1 a2 a3 a4 q g1 g2 => slots' q g1 g2 _ (r.slots q g1 g2) b2 a1 a2 a3 a4
    rw [e1] at hwin hmb
    simp only [e1] at hin
    simp only [e1, e2]
    rw [e2] at hmb
    by_cases hB : p = b.minP
    · -- the bucket of the minimum
      have hk : b.minB = b.idx p := by rw [hB]; exact r.mb
      have hF : F (ins L x p) b.minP = F L p ++ [x] := by rw [F_ins r.sorted, if_pos hB.symm]
      have hmi : (if b.minB = b.idx p ∧ b.minI = -1 then 0 else b.minI) = (lo : Int) := by
        rcases hid with ⟨q1, q2, _, _⟩ | ⟨q1, _⟩
        · rw [if_pos ⟨hk, q1⟩, q2]; rfl
        · rw [if_neg (by omega)]; exact q1
      refine ⟨lo, ⟨r.n0, r.bsz0, r.fb, hwin.1, hwin.2.1, hwin.2.2, hmb, hsorted, hin, hsl _ rfl rfl rfl rfl, hmax, ?_, r.zero, hemp, hcapf⟩, ?_⟩
      · exact .inl ⟨hmi, .inr (by show F (ins L x p) b.minP ≠ []; rw [hF]; simp)⟩
      · exact .inr ⟨hmi, by show F (ins L x p) b.minP ≠ []; rw [hF]; simp⟩
    · have hk : b.minB ≠ b.idx p := by
        rw [r.mb]
        intro q
        exact hB (idx_inj r.win1 (by omega) h1 h2 q).symm
      have hF : F (ins L x p) b.minP = F L b.minP := by rw [F_ins r.sorted, if_neg (fun q => hB q.symm)]
      have hmi : (if b.minB = b.idx p ∧ b.minI = -1 then 0 else b.minI) = b.minI := by rw [if_neg (fun q => hk q.1)]
      refine ⟨lo, ⟨r.n0, r.bsz0, r.fb, hwin.1, hwin.2.1, hwin.2.2, hmb, hsorted, hin, hsl _ rfl rfl rfl rfl, hmax, ?_, r.zero, hemp, hcapf⟩, ?_⟩
      · show ((if b.minB = b.idx p ∧ b.minI = -1 then 0 else b.minI) = (lo : Int) ∧ (lo = 0 ∨ F (ins L x p) b.minP ≠ [])) ∨
          (if b.minB = b.idx p ∧ b.minI = -1 then 0 else b.minI) = (lo : Int) - 1
        rw [hmi, hF]; exact r.ind
      · unfold Idle
        show ((if b.minB = b.idx p ∧ b.minI = -1 then 0 else b.minI) = -1 ∧ lo = 0 ∧ F (ins L x p) b.minP = [] ∧ b.minP = b.firstP) ∨
          ((if b.minB = b.idx p ∧ b.minI = -1 then 0 else b.minI) = (lo : Int) ∧ F (ins L x p) b.minP ≠ [])
        rw [hmi, hF]; exact hid

theorem insert_window {b : SBuck} (x : Nat) {p : Int} (h : p < b.firstP ∨ b.firstP + b.n ≤ p) : b.insert x p = .error .window := by
  unfold insert; dsimp only; rw [if_pos (by omega)]

theorem insert_full {b : SBuck} (x : Nat) {p : Int} (h1 : b.firstP ≤ p) (h2 : p < b.firstP + b.n)
    (h3 : b.last (b.idx p) + 1 = b.bsz) : b.insert x p = .error .full := by
  unfold insert; dsimp only
  rw [if_neg (by omega), if_pos]
  exact h3

theorem last_lt {b : SBuck} {L : Q} (r : R b L) {p : Int} (h1 : b.firstP ≤ p) (h2 : p < b.firstP + b.n) :
    b.last (b.idx p) + 1 ≤ b.bsz := by
  obtain ⟨lo, r, _⟩ := r
  have s := r.slots p h1 h2
  have a := s.last
  have c := s.bsz
  omega

theorem reset_ok {b : SBuck} {L : Q} (r : R b L) : R b.reset [] := by
  obtain ⟨lo, r, _⟩ := r
  refine ⟨0, ⟨r.n0, r.bsz0, r.n0, le_refl _, le_refl _, ?_, ?_, List.Pairwise.nil, by simp, ?_, ?_, .inr rfl, by simp, fun _ => rfl, r.capf⟩,
    .inl ⟨rfl, rfl, rfl, rfl⟩⟩
  · show (0 : Int) < 0 + b.n; have := r.n0; omega
  · show 0 = b.reset.idx 0
    simp [idx, reset]
  · intro p _ _
    rw [F_nil]
    refine ⟨fun _ _ => rfl, fun i => ?_, ?_, ?_, ?_⟩
    · show none = _; simp
    · show (-1 : Int) + 1 = _; split <;> simp
    · split <;> simp
    · split <;> simp
  · intro h; exact absurd h (by simp [reset])

theorem mk0_ok {n bsz dyn : Nat} (hn : 0 < n) (hb : 0 < bsz) : R (mk0 n bsz dyn) [] := by
  refine ⟨0, ⟨hn, hb, hn, le_refl _, le_refl _, ?_, ?_, List.Pairwise.nil, by simp, ?_, ?_, .inr rfl, by simp, fun _ => rfl,
    fun _ _ => .inl rfl⟩, .inl ⟨rfl, rfl, rfl, rfl⟩⟩
  · show (0 : Int) < 0 + n; omega
  · show 0 = (mk0 n bsz dyn).idx 0
    simp [idx, mk0]
  · intro p _ _
    rw [F_nil]
    refine ⟨fun _ _ => rfl, fun i => ?_, ?_, ?_, ?_⟩
    · show none = _; simp
    · show (-1 : Int) + 1 = _; split <;> simp
    · split <;> simp
    · split <;> simp
  · intro h; exact absurd h (by simp [mk0])

end Sbpl.SBuck
