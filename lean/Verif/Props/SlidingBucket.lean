import Verif.Spec.SlidingBucket
import Verif.Proofs.SlidingBucket
/-!
# Property C46: the sliding bucket queue
-/

namespace Sbpl.SBuckProps
open SBuck SBuckSpec

theorem place_eq (l : Q) (x : Nat) (p : Int) : place l x p = ins l x p := by
  induction l with
  | nil => rfl
  | cons e l ih =>
    unfold place ins
    split
    next h => simp [h, ih, ins]
    next h => simp [h]

theorem count_eq (l : Q) (p : Int) : count l p = (F l p).length := by
  unfold count F
  rw [List.length_map, List.countP_eq_length_filter]
  congr 1

/-- the object represents the abstract queue -/
structure Rel (n bsz : Nat) (b : SBuck) (s : St) : Prop where
  r : R b s.items
  n : b.n = n
  bsz : b.bsz = bsz
  first : b.firstP = s.first
  gone : b.last (b.idx s.first) + 1 = count s.items s.first + s.gone
  loc : b.minI = -1 ↔ s.located = false

theorem last_eq {n bsz : Nat} {b : SBuck} {s : St} (h : Rel n bsz b s) {p : Int} (h1 : s.first ≤ p) (h2 : p < s.first + n) :
    b.last (b.idx p) + 1 = count s.items p + (if p = s.first then s.gone else 0 : Nat) := by
  by_cases q : p = s.first
  · rw [q, if_pos rfl]; exact h.gone
  · rw [if_neg q]
    obtain ⟨lo, rr, _⟩ := h.r
    have sl := (rr.slots p (by rw [h.first]; exact h1) (by rw [h.first, h.n]; exact h2)).last
    rw [count_eq]
    have hf := h.first
    split at sl
    next q2 =>
      have : lo = 0 := by
        by_contra q3
        have := rr.zero (by omega)
        omega
      rw [this] at sl; omega
    next => push_cast at sl ⊢; omega

theorem last_zero {b : SBuck} {l : Q} (h : R b l) {p : Int} (h1 : b.firstP ≤ p) (h2 : p < b.firstP + b.n) (c0 : count l p = 0) :
    b.last (b.idx p) + 1 = 0 := by
  obtain ⟨lo', rr', hid'⟩ := h
  have sl := (rr'.slots p h1 h2).last
  rw [← count_eq, c0] at sl
  rw [sl]
  have : (if p = b.minP then lo' else 0) = 0 := by
    split
    next q =>
      rcases hid' with ⟨_, q2, _⟩ | ⟨_, q2⟩
      · exact q2
      · exfalso; apply q2; rw [← q, ← List.length_eq_zero_iff, ← count_eq]; exact c0
    next => rfl
  rw [this]; rfl

theorem last_pos {b : SBuck} {l : Q} (h : R b l) {p : Int} (h1 : b.firstP ≤ p) (h2 : p < b.firstP + b.n) (c0 : count l p ≠ 0) :
    b.last (b.idx p) ≠ -1 := by
  obtain ⟨lo', rr', hid'⟩ := h
  have sl := (rr'.slots p h1 h2).last
  rw [← count_eq] at sl
  omega

theorem n_pos {b : SBuck} {l : Q} (h : R b l) : 0 < b.n := by
  obtain ⟨lo', rr', hid'⟩ := h
  exact rr'.n0

theorem step_ok {n bsz : Nat} {b : SBuck} {s : St} (h : Rel n bsz b s) (op : SBOp) :
    (b.step op).2 = (SBuckSpec.step n bsz s op).2 ∧ Rel n bsz (b.step op).1 (SBuckSpec.step n bsz s op).1 := by
  have hn := h.n
  have hf := h.first
  cases op with
  | insert x p =>
    unfold SBuck.step SBuckSpec.step
    dsimp only
    by_cases w : p < s.first ∨ s.first + n ≤ p
    · rw [if_pos w, insert_window x (by rw [hf, hn]; exact w)]
      exact ⟨rfl, h⟩
    · rw [if_neg w]
      have h1 : s.first ≤ p := by omega
      have h2 : p < s.first + n := by omega
      have le := last_eq h h1 h2
      have lt := last_lt h.r (p := p) (by omega) (by omega)
      have hb := h.bsz
      by_cases f : count s.items p + (if p = s.first then s.gone else 0) = bsz
      · rw [if_pos f, insert_full x (by omega) (by omega) (by rw [le, hb, ← f]; push_cast; rfl)]
        exact ⟨rfl, h⟩
      · rw [if_neg f]
        obtain ⟨b', e, r', a1, a2, _, a4, a5, a6, a7⟩ := insert_ok h.r x (p := p) (by omega) (by omega) (by
          rw [hb] at lt ⊢
          rw [le] at lt ⊢
          omega)
        rw [e]
        have hidx : ∀ q, b'.idx q = b.idx q := by intro q; unfold idx; rw [a1, a4, a5]
        refine ⟨rfl, ?_, ?_, ?_, ?_, ?_, ?_⟩
        · show R b' (place s.items x p)
          rw [place_eq]; exact r'
        · show b'.n = n; omega
        · show b'.bsz = bsz; omega
        · show b'.firstP = s.first; omega
        · show b'.last (b'.idx s.first) + 1 = count (place s.items x p) s.first + s.gone
          obtain ⟨lo, rr, _⟩ := h.r
          rw [hidx, a6, place_eq, count_eq, F_ins rr.sorted]
          have g := h.gone
          rw [count_eq] at g
          by_cases q : s.first = p
          · rw [if_pos q, ← q, upd_same]; simp; omega
          · rw [if_neg q, upd_other _ _ (fun k => q (idx_inj (by omega) (by omega) (by omega) (by omega) k))]; exact g
        · show b'.minI = -1 ↔ (s.located || p == s.first) = false
          rw [a7, h.loc, hf]; simp
  | pop =>
    unfold SBuck.step SBuckSpec.step
    dsimp only
    obtain ⟨items, first, gone, located⟩ := s
    cases items with
    | nil => rw [pop_empty h.r]; exact ⟨rfl, h⟩
    | cons e l =>
      obtain ⟨x, p⟩ := e
      obtain ⟨b', e, r', a, a4, a5, a6⟩ := SBuck.pop_ok h.r
      rw [e]
      have a1 := a.n
      have a2 := a.bsz
      have a3 := a.last
      have hb := h.bsz
      refine ⟨rfl, r', by show b'.n = n; omega, by show b'.bsz = bsz; omega, a4, ?_, ?_⟩
      · show b'.last (b'.idx p) + 1 = count l p + ((if count l p = 0 then 0 else (if p = first then gone else 0) + 1 : Nat) : Int)
        have n0 := n_pos r'
        by_cases c0 : count l p = 0
        · rw [if_pos c0, c0, last_zero r' (by omega) (by omega) c0]; rfl
        · rw [if_neg c0]
          have idx' : b'.idx p = b.idx p := by
            unfold idx
            rw [a5, a4, a1]
            simp [idx]
          have hle : first ≤ p ∧ p < first + n := by
            obtain ⟨lo, rr, _⟩ := h.r
            have := rr.inL (x, p) (by simp)
            have := rr.win1
            have := rr.win3
            dsimp only at hf this
            omega
          have le := last_eq h hle.1 hle.2
          have cc : count ((x, p) :: l) p = count l p + 1 := by simp [count]
          rw [cc] at le
          rw [idx']
          have lp := last_pos r' (p := p) (by omega) (by omega) c0
          rw [idx'] at lp
          rcases a3 (b.idx p) with q | q
          · rw [q]; dsimp only at le; push_cast at le ⊢; omega
          · exact absurd q lp
      · show b'.minI = -1 ↔ (!l.isEmpty) = false
        constructor
        · intro q
          by_contra q2
          exact a6 (by rintro rfl; simp at q2) q
        · intro q
          have : l = [] := by simpa using q
          subst this
          obtain ⟨lo', rr', hid'⟩ := r'
          rcases hid' with ⟨q, _⟩ | ⟨_, q⟩
          · exact q
          · exact absurd (F_nil _) q
  | getMin =>
    unfold SBuck.step SBuckSpec.step
    dsimp only
    obtain ⟨b', e, r', a, a4, a5, a6, a7⟩ := SBuck.getMin_ok h.r
    rw [e]
    have a1 := a.n
    have a2 := a.bsz
    have hb := h.bsz
    by_cases c0 : s.items = []
    · have hb' := a7 c0
      subst hb'
      refine ⟨rfl, h.r, hn, hb, hf, h.gone, ?_⟩
      show b'.minI = -1 ↔ (!s.items.isEmpty) = false
      have hr := h.r
      rw [c0] at hr ⊢
      obtain ⟨lo', rr', hid'⟩ := hr
      rcases hid' with ⟨q, _⟩ | ⟨_, q⟩
      · simp [q]
      · exact absurd (F_nil _) q
    · refine ⟨rfl, r', by show b'.n = n; omega, by show b'.bsz = bsz; omega, by show b'.firstP = s.first; omega, ?_, ?_⟩
      · show b'.last (b'.idx s.first) + 1 = count s.items s.first + s.gone
        have idx' : b'.idx s.first = b.idx s.first := by unfold idx; rw [a5, a4, a1]
        have g := h.gone
        have n0 := n_pos r'
        by_cases c1 : count s.items s.first = 0
        · have g2 := last_zero h.r (p := s.first) (by omega) (by omega) c1
          rw [last_zero r' (by omega) (by omega) c1]
          omega
        · have lp := last_pos r' (p := s.first) (by omega) (by omega) c1
          rcases a.last (b'.idx s.first) with q | q
          · rw [q, idx']; exact g
          · exact absurd q lp
      · show b'.minI = -1 ↔ (!s.items.isEmpty) = false
        simp [c0, a6 c0]
  | minKey =>
    refine ⟨?_, h⟩
    show SBOut.key b.minP = SBOut.key _
    congr 1
    obtain ⟨lo, rr, hid⟩ := h.r
    have hl := h.loc
    cases hi : s.items with
    | nil => rw [rr.emp hi]; exact hf
    | cons e l =>
      rw [hi] at rr hid
      rcases hid with ⟨q1, q2, q3, q4⟩ | ⟨q1, q2⟩
      · simp only [hl.mp q1, Bool.false_eq_true, if_false]; omega
      · have : s.located = true := by
          rw [← Bool.not_eq_false, ← hl]; omega
        simp only [this, if_true]
        obtain ⟨x, L', e1, _⟩ := rr.full q2
        cases e1; rfl
  | isEmpty =>
    refine ⟨?_, h⟩
    show SBOut.bool b.isEmpty = SBOut.bool s.items.isEmpty
    have := h.r.empty_iff
    congr 1
    rw [Bool.eq_iff_iff, this]; simp
  | reset =>
    refine ⟨rfl, reset_ok h.r, hn, h.bsz, rfl, ?_, ?_⟩
    · show (-1 : Int) + 1 = _; rfl
    · show (-1 : Int) = -1 ↔ _; simp [SBuckSpec.step]

theorem run_ok {n bsz : Nat} (ops : List SBOp) : ∀ {b : SBuck} {s : St}, Rel n bsz b s →
    (b.run ops).2 = (SBuckSpec.run n bsz s ops).2 := by
  induction ops with
  | nil => intro b s _; rfl
  | cons op ops ih =>
    intro b s h
    obtain ⟨h1, h2⟩ := step_ok h op
    show (b.step op).2 :: _ = _ :: _
    rw [h1, ih h2]

/-- **C46.** Every history of calls on a new queue with `n ≥ 1` buckets of at most `bsz ≥ 1` elements (allocated at once, or grown
from `dyn` elements) gives exactly the answers of the stable priority queue: pop and getminelement give the oldest of the elements of
smallest priority; an insertion raises an exception exactly if the priority is outside the window that starts at the priority returned
last, or the bucket has no slot left; and never is an array accessed out of range. -/
theorem history_refines (n bsz dyn : Nat) (hn : 1 ≤ n) (hb : 1 ≤ bsz) (ops : List SBOp) :
    ((mk0 n bsz dyn).run ops).2 = (SBuckSpec.run n bsz SBuckSpec.new ops).2 :=
  run_ok ops ⟨mk0_ok hn hb, rfl, rfl, rfl, rfl, by constructor <;> intro _ <;> rfl⟩

/-- a history that wraps around the buckets, meets both exceptions and grows a bucket -/
def sampleB : List SBOp :=
  [.insert 10 2, .minKey, .insert 11 1, .insert 12 2, .getMin, .minKey, .pop, .insert 13 4, .insert 14 0, .insert 15 3, .pop, .insert 16 2,
   .insert 17 2, .pop, .insert 18 4, .pop, .pop, .pop, .pop, .pop, .isEmpty, .insert 19 6, .minKey, .reset, .insert 20 0, .pop]

example : ((mk0 3 3 1).run sampleB).2 =
    [.done, .key 0, .done, .done, .item (some 11), .key 1, .item (some 11), .raised .window, .raised .window, .done, .item (some 10),
     .done, .raised .full, .item (some 12), .done, .item (some 16), .item (some 15), .item (some 18), .item none, .item none, .bool true,
     .done, .key 4, .done, .done, .item (some 20)] := by decide +kernel

end Sbpl.SBuckProps
