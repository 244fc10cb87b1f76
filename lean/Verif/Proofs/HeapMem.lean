import Verif.Proofs.HeapRefine
/-!
# Which heap slots the operations read and write
-/
set_option linter.unusedSectionVars false

namespace Sbpl
namespace Heap
open HeapSpec

variable {K : Type} [LinearOrder K]

/-- The two heaps agree on everything except the content of slots outside `1..size` and slot `x`. -/
structure LiveX (x : Nat) (a b : Heap K) : Prop where
  size : a.size = b.size
  alloc : a.alloc = b.alloc
  idx : a.idx = b.idx
  arr : ∀ i, 1 ≤ i → i ≤ a.size → i ≠ x → a.arr i = b.arr i

/-- The two heaps agree on everything except the content of slots outside `1..size`. -/
abbrev Live (a b : Heap K) : Prop := LiveX 0 a b

theorem LiveX.place {x : Nat} {a b : Heap K} (l : LiveX x a b) (e : HElem K) (y : Nat) :
    LiveX y (a.place x e) (b.place x e) := by
  refine ⟨l.size, l.alloc, by simp [Heap.place, l.idx], ?_⟩
  intro i i1 i2 _
  simp only [Heap.place, upd]
  split
  · rfl
  next n => exact l.arr i i1 i2 n

theorem LiveX.mono {x : Nat} {a b : Heap K} (l : Live a b) : LiveX x a b :=
  ⟨l.size, l.alloc, l.idx, fun i i1 i2 _ => l.arr i i1 i2 (by omega)⟩

theorem live_percUpLoop (fuel : Nat) : ∀ {a b : Heap K} {hole : Nat} (_ : LiveX hole a b)
    (_ : hole ≤ a.size + 1) (t : HElem K), Live (a.percUpLoop fuel hole t) (b.percUpLoop fuel hole t) := by
  induction fuel with
  | zero => intro a b hole l _ t; exact l.place t 0
  | succ fuel ih =>
    intro a b hole l hl t
    rw [percUpLoop, percUpLoop]
    by_cases c1 : hole > 1
    · have e := l.arr (hole / 2) (by omega) (by omega) (by omega)
      rw [e]
      split
      · exact ih (l.place _ _) (show hole / 2 ≤ a.size + 1 by omega) t
      · exact l.place t 0
    · simp only [c1, false_and, if_false]
      exact l.place t 0

theorem live_percDownLoop (fuel : Nat) : ∀ {a b : Heap K} {hole : Nat} (_ : LiveX hole a b)
    (_ : 1 ≤ hole) (t : HElem K),
    Live (a.percDownLoop fuel hole t) (b.percDownLoop fuel hole t) := by
  induction fuel with
  | zero => intro a b hole l _ t; exact l.place t 0
  | succ fuel ih =>
    intro a b hole l hl t
    rw [percDownLoop, percDownLoop, ← l.size]
    split
    next c =>
      have pc : a.pickChild hole = b.pickChild hole ∧ a.pickChild hole ≤ a.size ∧
          hole < a.pickChild hole := by
        unfold pickChild
        rw [← l.size]
        by_cases d : 2 * hole = a.size
        · simp only [ne_eq, d, not_true, false_and, if_false, true_and]
          omega
        · rw [l.arr (2 * hole) (by omega) c (by omega),
            l.arr (2 * hole + 1) (by omega) (by omega) (by omega)]
          refine ⟨rfl, ?_, ?_⟩ <;> split <;> omega
      obtain ⟨p1, p2, p3⟩ := pc
      rw [← p1]
      generalize a.pickChild hole = p at *
      simp only
      rw [l.arr p (by omega) p2 (by omega)]
      split
      · exact ih (l.place _ _) (by omega) t
      · exact l.place t 0
    · exact l.place t 0

theorem live_percDown {a b : Heap K} {hole : Nat} (l : LiveX hole a b) (h1 : 1 ≤ hole)
    (t : HElem K) : Live (a.percDown hole t) (b.percDown hole t) := by
  unfold percDown
  rw [← l.size]
  split
  · exact live_percDownLoop _ l h1 t
  next z =>
    have z : a.size = 0 := by simpa using z
    exact ⟨l.size, l.alloc, l.idx, fun i _ _ => by omega⟩

theorem live_percUpOrDown {a b : Heap K} {hole : Nat} (l : LiveX hole a b) (h1 : 1 ≤ hole)
    (h2 : hole ≤ a.size + 1)
    (t : HElem K) : Live (a.percUpOrDown hole t) (b.percUpOrDown hole t) := by
  unfold percUpOrDown percUp
  rw [← l.size]
  by_cases z : a.size = 0
  · simp only [z, ne_eq, not_true, if_false]
    exact ⟨l.size, l.alloc, l.idx, fun i _ _ => by omega⟩
  · simp only [ne_eq, z, not_false_eq_true, if_true]
    by_cases c : hole > 1
    · rw [l.arr (hole / 2) (by omega) (by omega) (by omega)]
      split
      · exact live_percUpLoop _ l h2 t
      · exact live_percDown l h1 t
    · simp only [c, false_and, if_false]
      exact live_percDown l h1 t

theorem live_sizeCheck {a b : Heap K} (l : Live a b) :
    (∃ e, a.sizeCheck = .error e ∧ b.sizeCheck = .error e) ∨
    (∃ a1 b1, a.sizeCheck = .ok a1 ∧ b.sizeCheck = .ok b1 ∧ Live a1 b1 ∧ a1.size = a.size) := by
  unfold sizeCheck isFull
  rw [← l.size, ← l.alloc]
  split
  · left; exact ⟨_, rfl, rfl⟩
  · right
    split
    · refine ⟨_, _, rfl, rfl, ⟨l.size, ?_, l.idx, l.arr⟩, rfl⟩
      simp [grow, l.alloc]
    · exact ⟨_, _, rfl, rfl, l, rfl⟩

theorem live_clearIdx {a b : Nat → HElem K} (idx : Nat → Nat) (n : Nat)
    (h : ∀ i, 1 ≤ i → i ≤ n → a i = b i) : clearIdx a idx n = clearIdx b idx n := by
  induction n with
  | zero => rfl
  | succ n ih =>
    simp only [clearIdx]
    rw [ih (fun i x y => h i x (by omega)), h (n + 1) (by omega) (Nat.le_refl _)]

theorem percDownLoop_size : ∀ (f : Nat) (h : Heap K) (m : Nat) (e : HElem K),
    (h.percDownLoop f m e).size = h.size := by
  intro f
  induction f with
  | zero => intro h m e; rfl
  | succ f ih =>
    intro h m e
    rw [percDownLoop]
    simp only
    split
    · split
      · rw [ih]; rfl
      · rfl
    · rfl

theorem percDown_size (h : Heap K) (m : Nat) (e : HElem K) : (h.percDown m e).size = h.size := by
  unfold percDown
  split
  · exact percDownLoop_size _ _ _ _
  · rfl

theorem live_makeHeapLoop (n : Nat) : ∀ {a b : Heap K}, Live a b → n ≤ a.size →
    Live (makeHeapLoop a n) (makeHeapLoop b n) := by
  induction n with
  | zero => intro a b l _; exact l
  | succ n ih =>
    intro a b l hn
    simp only [makeHeapLoop]
    rw [← l.arr (n + 1) (by omega) hn (by omega)]
    have l2 := live_percDown (hole := n + 1) (LiveX.mono l) (by omega) (a.arr (n + 1))
    apply ih l2
    rw [percDown_size]; omega

/-- No operation reads a slot outside `1..currentsize` (nor uninitialised memory). -/
theorem live_step (infKey : K) {a b : Heap K} (hb : BP a) (l : Live a b) (op : HOp K) :
    (a.step infKey op).2 = (b.step infKey op).2 ∧
    Live (a.step infKey op).1 (b.step infKey op).1 := by
  have arrI : ∀ s, a.idx s ≠ 0 → a.arr (a.idx s) = b.arr (a.idx s) := by
    intro s hs
    exact l.arr _ (by omega) (hb.bwd s hs).1 (by omega)
  have asc : Live a.afterSizeCheck b.afterSizeCheck := by
    unfold afterSizeCheck
    rcases live_sizeCheck l with ⟨e, x, y⟩ | ⟨a1, b1, x, y, l1, s1⟩
    · rw [x, y]; exact l
    · rw [x, y]; exact l1
  cases op with
  | insert s k =>
    simp only [step, insert]
    rcases live_sizeCheck l with ⟨e, x, y⟩ | ⟨a1, b1, x, y, l1, s1⟩
    · rw [x, y]; exact ⟨rfl, asc⟩
    · rw [x, y]
      simp only [← l1.idx]
      split
      · exact ⟨rfl, asc⟩
      · refine ⟨rfl, ?_⟩
        simp only [lift, percUp]
        rw [← l1.size]
        simp only [ne_eq, Nat.add_eq_zero_iff, Nat.succ_ne_self, and_false, not_false_eq_true, if_true]
        apply live_percUpLoop
        · refine ⟨?_, l1.alloc, rfl, ?_⟩
          · rfl
          · intro i i1 i2 i3
            have i2 : i ≤ a1.size + 1 := i2
            exact l1.arr i i1 (by omega) (by omega)
        · show a1.size + 1 ≤ a1.size + 1 + 1
          omega
  | delete s =>
    simp only [step, delete]
    rw [← l.idx]
    by_cases z : a.idx s = 0
    · simp only [z, if_true, lift]; exact ⟨trivial, l⟩
    · have q := (hb.bwd s z).1
      simp only [z, if_false, lift, true_and]
      have lx := l.arr a.size (by omega) (Nat.le_refl _) (by omega)
      rw [lx, ← l.size]
      have := live_percUpOrDown (a := ({ a with size := a.size - 1 } : Heap K))
        (b := ({ b with size := a.size - 1 } : Heap K)) (hole := a.idx s)
        ⟨rfl, l.alloc, l.idx, fun i i1 i2 i3 => by
          have i2 : i ≤ a.size - 1 := i2
          exact l.arr i i1 (by omega) (by omega)⟩ (by omega)
        (show a.idx s ≤ a.size - 1 + 1 by omega) (b.arr a.size)
      rw [← l.idx] at this
      refine ⟨this.size, this.alloc, ?_, this.arr⟩
      simp only
      rw [this.idx]
  | update s k =>
    simp only [step, update]
    rw [← l.idx]
    by_cases z : a.idx s = 0
    · simp only [z, if_true, lift]; exact ⟨trivial, l⟩
    · have q := (hb.bwd s z).1
      simp only [z, if_false]
      rw [arrI s z]
      split
      · simp only [lift, true_and, upd_same]
        have := live_percUpOrDown
          (a := ({ a with arr := upd a.arr (a.idx s) ⟨(b.arr (a.idx s)).st, k⟩ } : Heap K))
          (b := ({ b with arr := upd b.arr (a.idx s) ⟨(b.arr (a.idx s)).st, k⟩ } : Heap K))
          (hole := a.idx s)
          ⟨l.size, l.alloc, l.idx, fun i i1 i2 i3 => by
            simp only [upd, i3, if_false]
            exact l.arr i i1 i2 (by omega)⟩ (by omega)
          (show a.idx s ≤ a.size + 1 by omega) ⟨(b.arr (a.idx s)).st, k⟩
        rw [← l.idx] at this
        exact this
      · exact ⟨rfl, l⟩
  | deleteMin =>
    simp only [step, deleteMin]
    rw [← l.size]
    by_cases z : a.size = 0
    · simp only [z, if_true]; exact ⟨trivial, l⟩
    · simp only [z, if_false]
      rw [l.arr 1 (Nat.le_refl _) (by omega) (by omega),
        l.arr a.size (by omega) (Nat.le_refl _) (by omega)]
      refine ⟨rfl, ?_⟩
      apply live_percDown _ (Nat.le_refl _)
      refine ⟨rfl, l.alloc, by simp only [l.idx], ?_⟩
      intro i i1 i2 _
      have i2 : i ≤ a.size - 1 := i2
      exact l.arr i i1 (by omega) (by omega)
  | getMin =>
    simp only [step, getMin]
    rw [← l.size]
    by_cases z : a.size = 0
    · simp only [z, if_true]; exact ⟨trivial, l⟩
    · simp only [z, if_false]
      rw [l.arr 1 (Nat.le_refl _) (by omega) (by omega)]
      exact ⟨rfl, l⟩
  | getMinKey =>
    simp only [step, getMinKey]
    rw [← l.size]
    by_cases z : a.size = 0
    · simp only [z, if_true]; exact ⟨trivial, l⟩
    · simp only [z, if_false]
      rw [l.arr 1 (Nat.le_refl _) (by omega) (by omega)]
      exact ⟨rfl, l⟩
  | inHeap s =>
    simp only [step, inHeap]
    rw [← l.idx]
    exact ⟨rfl, l⟩
  | getKey s =>
    simp only [step, getKey]
    rw [← l.idx]
    by_cases z : a.idx s = 0
    · simp only [z, if_true]; exact ⟨trivial, l⟩
    · simp only [z, if_false]
      rw [arrI s z]
      exact ⟨rfl, l⟩
  | isEmpty =>
    simp only [step, isEmpty]
    rw [← l.size]
    exact ⟨rfl, l⟩
  | makeEmpty =>
    refine ⟨rfl, rfl, l.alloc, ?_, ?_⟩
    · simp only [step, makeEmpty]
      rw [← l.size, ← l.idx]
      exact live_clearIdx _ _ (fun i x y => l.arr i x y (by omega))
    · intro i x y
      have y : i ≤ 0 := y
      omega
  | insertUnsafe s k =>
    simp only [step, insertUnsafe]
    rcases live_sizeCheck l with ⟨e, x, y⟩ | ⟨a1, b1, x, y, l1, s1⟩
    · rw [x, y]; exact ⟨rfl, asc⟩
    · rw [x, y]
      simp only [← l1.idx]
      split
      · exact ⟨rfl, asc⟩
      · refine ⟨rfl, ?_⟩
        simp only [lift]
        rw [← l1.size]
        apply LiveX.place
        refine ⟨rfl, l1.alloc, rfl, ?_⟩
        intro i i1 i2 i3
        have i2 : i ≤ a1.size + 1 := i2
        exact l1.arr i i1 (by omega) (by omega)
  | deleteUnsafe s =>
    simp only [step, deleteUnsafe]
    rw [← l.idx]
    by_cases z : a.idx s = 0
    · simp only [z, if_true, lift]; exact ⟨trivial, l⟩
    · have q := (hb.bwd s z).1
      simp only [z, if_false, lift, true_and, upd_same]
      rw [← l.size, l.arr a.size (by omega) (Nat.le_refl _) (by omega)]
      refine ⟨rfl, l.alloc, rfl, ?_⟩
      intro i i1 i2 _
      have i2 : i ≤ a.size - 1 := i2
      simp only [upd]
      split
      · rfl
      · exact l.arr i i1 (by omega) (by omega)
  | updateUnsafe s k =>
    simp only [step, updateUnsafe]
    rw [← l.idx]
    by_cases z : a.idx s = 0
    · simp only [z, if_true, lift]; exact ⟨trivial, l⟩
    · have q := (hb.bwd s z).1
      simp only [z, if_false]
      rw [arrI s z]
      split
      · simp only [lift, true_and]
        refine ⟨l.size, l.alloc, rfl, ?_⟩
        intro i i1 i2 _
        simp only [upd]
        split
        · rfl
        · exact l.arr i i1 i2 (by omega)
      · exact ⟨rfl, l⟩
  | makeHeap =>
    refine ⟨rfl, ?_⟩
    simp only [step, makeHeap]
    rw [← l.size]
    exact live_makeHeapLoop _ l (by omega)

/-- Slots at or above `n` are the same in both heaps. -/
def Frame (n : Nat) (a b : Heap K) : Prop := ∀ i, n ≤ i → a.arr i = b.arr i

theorem frame_place (h : Heap K) {n p : Nat} (e : HElem K) (hp : p < n) :
    Frame n (h.place p e) h := by
  intro i hi
  simp only [place, upd]
  rw [if_neg (by omega)]

theorem Frame.trans {n : Nat} {a b c : Heap K} (x : Frame n a b) (y : Frame n b c) : Frame n a c :=
  fun i hi => (x i hi).trans (y i hi)

theorem frame_percUpLoop (f : Nat) : ∀ (h : Heap K) {n p : Nat} (e : HElem K), p < n →
    Frame n (h.percUpLoop f p e) h := by
  induction f with
  | zero => intro h n p e hp; exact frame_place h e hp
  | succ f ih =>
    intro h n p e hp
    rw [percUpLoop]
    split
    · exact (ih _ e (by omega)).trans (frame_place h _ hp)
    · exact frame_place h e hp

theorem frame_percDownLoop (f : Nat) : ∀ (h : Heap K) {n p : Nat} (e : HElem K), p < n →
    h.size < n → Frame n (h.percDownLoop f p e) h := by
  induction f with
  | zero => intro h n p e hp _; exact frame_place h e hp
  | succ f ih =>
    intro h n p e hp hs
    rw [percDownLoop]
    simp only
    split
    next c =>
      have pc : h.pickChild p ≤ h.size := by
        unfold pickChild
        split <;> omega
      split
      · exact (ih (h.place p _) e (by omega) hs).trans (frame_place h _ hp)
      · exact frame_place h e hp
    · exact frame_place h e hp

theorem frame_percDown (h : Heap K) {n p : Nat} (e : HElem K) (hp : p < n) (hs : h.size < n) :
    Frame n (h.percDown p e) h := by
  unfold percDown
  split
  · exact frame_percDownLoop _ h e hp hs
  · intro i _; rfl

theorem frame_percUpOrDown (h : Heap K) {n p : Nat} (e : HElem K) (hp : p < n) (hs : h.size < n) :
    Frame n (h.percUpOrDown p e) h := by
  unfold percUpOrDown
  split
  · split
    · unfold percUp
      split
      · exact frame_percUpLoop _ h e hp
      next a _ c => exact absurd a c
    · exact frame_percDown h e hp hs
  · intro i _; rfl

theorem frame_makeHeapLoop (n m : Nat) : ∀ (h : Heap K), h.size < n → m < n →
    Frame n (makeHeapLoop h m) h := by
  induction m with
  | zero => intro h _ _ i _; rfl
  | succ m ih =>
    intro h hs hm
    simp only [makeHeapLoop]
    exact (ih _ (by rw [percDown_size]; exact hs) (by omega)).trans (frame_percDown h _ hm hs)

theorem percUpLoop_alloc : ∀ (f : Nat) (h : Heap K) (m : Nat) (e : HElem K),
    (h.percUpLoop f m e).alloc = h.alloc := by
  intro f
  induction f with
  | zero => intro h m e; rfl
  | succ f ih =>
    intro h m e
    rw [percUpLoop]
    split
    · rw [ih]; rfl
    · rfl

theorem percDownLoop_alloc : ∀ (f : Nat) (h : Heap K) (m : Nat) (e : HElem K),
    (h.percDownLoop f m e).alloc = h.alloc := by
  intro f
  induction f with
  | zero => intro h m e; rfl
  | succ f ih =>
    intro h m e
    rw [percDownLoop]
    simp only
    split
    · split
      · rw [ih]; rfl
      · rfl
    · rfl

theorem percUp_alloc (h : Heap K) (m : Nat) (e : HElem K) : (h.percUp m e).alloc = h.alloc := by
  unfold percUp; split
  · exact percUpLoop_alloc _ _ _ _
  · rfl
theorem percDown_alloc (h : Heap K) (m : Nat) (e : HElem K) : (h.percDown m e).alloc = h.alloc := by
  unfold percDown; split
  · exact percDownLoop_alloc _ _ _ _
  · rfl
theorem percUpOrDown_alloc (h : Heap K) (m : Nat) (e : HElem K) :
    (h.percUpOrDown m e).alloc = h.alloc := by
  unfold percUpOrDown; split
  · split
    · exact percUp_alloc _ _ _
    · exact percDown_alloc _ _ _
  · rfl

theorem makeHeapLoop_alloc (n : Nat) : ∀ h : Heap K, (makeHeapLoop h n).alloc = h.alloc := by
  induction n with
  | zero => intro h; rfl
  | succ n ih => intro h; rw [makeHeapLoop, ih, percDown_alloc]

theorem sizeCheck_alloc {h h1 : Heap K} (le : h.alloc ≤ HEAPSIZE) (e : h.sizeCheck = .ok h1) :
    h.alloc ≤ h1.alloc := by
  unfold sizeCheck at e
  split at e
  · cases e
  · split at e
    · cases e; simp only [grow]; split <;> omega
    · cases e; exact Nat.le_refl _

theorem step_alloc_mono (infKey : K) {h : Heap K} (le : h.alloc ≤ HEAPSIZE) (op : HOp K) :
    h.alloc ≤ (h.step infKey op).1.alloc := by
  have asc : h.alloc ≤ h.afterSizeCheck.alloc := by
    unfold afterSizeCheck
    split
    next h1 e => exact sizeCheck_alloc le e
    · exact Nat.le_refl _
  cases op with
  | insert s k =>
    simp only [step, insert]
    cases x : h.sizeCheck with
    | error e => exact asc
    | ok h1 =>
      simp only
      split
      · exact asc
      · simp only [lift, percUp_alloc]; exact sizeCheck_alloc le x
  | delete s =>
    simp only [step, delete]
    split
    · exact Nat.le_refl _
    · simp only [lift, percUpOrDown_alloc]; exact Nat.le_refl _
  | update s k =>
    simp only [step, update]
    split
    · exact Nat.le_refl _
    · split
      · simp only [lift, percUpOrDown_alloc]; exact Nat.le_refl _
      · exact Nat.le_refl _
  | deleteMin =>
    simp only [step, deleteMin]
    by_cases z : h.size = 0
    · simp only [z, if_true]; exact Nat.le_refl _
    · simp only [z, if_false, percDown_alloc]; exact Nat.le_refl _
  | getMin => simp only [step]; split <;> exact Nat.le_refl _
  | getMinKey => exact Nat.le_refl _
  | inHeap s => exact Nat.le_refl _
  | getKey s => simp only [step]; split <;> exact Nat.le_refl _
  | isEmpty => exact Nat.le_refl _
  | makeEmpty => exact Nat.le_refl _
  | insertUnsafe s k =>
    simp only [step, insertUnsafe]
    cases x : h.sizeCheck with
    | error e => exact asc
    | ok h1 =>
      simp only
      split
      · exact asc
      · simp only [lift, place]; exact sizeCheck_alloc le x
  | deleteUnsafe s =>
    simp only [step, deleteUnsafe]
    split <;> exact Nat.le_refl _
  | updateUnsafe s k =>
    simp only [step, updateUnsafe]
    split
    · exact Nat.le_refl _
    · split <;> exact Nat.le_refl _
  | makeHeap =>
    simp only [step, makeHeap, makeHeapLoop_alloc]; exact Nat.le_refl _

/-- No operation writes a slot at or beyond `allocated` (as it is after the call). -/
theorem frame_step (infKey : K) {h : Heap K} (hb : BP h) (al : AllocOk h) (op : HOp K) :
    ∀ i, (h.step infKey op).1.alloc ≤ i → (h.step infKey op).1.arr i = h.arr i := by
  have ga := step_alloc_mono infKey al.le op
  have lt := al.lt
  have ascArr : h.afterSizeCheck.arr = h.arr := by
    unfold afterSizeCheck
    split
    next h1 e => exact (sizeCheck_spec e).1
    · rfl
  cases op with
  | insert s k =>
    simp only [step] at ga ⊢
    cases x : h.insert s k with
    | error e => intro i _; simp only [lift, ascArr]
    | ok h' =>
      rw [x] at ga
      simp only [lift] at ga ⊢
      have spec := insert_spec hb x
      have al' := spec.2.2.2.2.1 al
      have sz := spec.2.2.1
      unfold insert at x
      split at x
      · cases x
      next h1 sc =>
        obtain ⟨ea, es, _⟩ := sizeCheck_spec sc
        split at x
        · cases x
        · cases x
          intro i hi
          have lt' := al'.lt
          rw [sz] at lt'
          have := frame_percUpLoop (n := i) (h1.size + 1) ({ h1 with size := h1.size + 1 } : Heap K)
            ⟨s, k⟩ (p := h1.size + 1) (by rw [es]; omega) i (Nat.le_refl _)
          simp only [percUp, ne_eq, Nat.add_eq_zero_iff, Nat.succ_ne_self, and_false,
            not_false_eq_true, if_true]
          rw [this, ← ea]
  | delete s =>
    simp only [step, delete] at ga ⊢
    by_cases z : h.idx s = 0
    · simp only [z, if_true, lift]; intro i _; trivial
    · simp only [z, if_false, lift] at ga ⊢
      have q := (hb.bwd s z).1
      intro i hi
      exact frame_percUpOrDown (n := i) ({ h with size := h.size - 1 } : Heap K) (h.arr h.size)
        (p := h.idx s) (by omega) (show h.size - 1 < i by omega) i (Nat.le_refl _)
  | update s k =>
    simp only [step, update] at ga ⊢
    by_cases z : h.idx s = 0
    · simp only [z, if_true, lift]; intro i _; trivial
    · simp only [z, if_false] at ga ⊢
      have q := (hb.bwd s z).1
      split
      next c =>
        simp only [c, ne_eq, not_false_eq_true, if_true, lift] at ga ⊢
        intro i hi
        have w := frame_percUpOrDown (n := i)
          ({ h with arr := upd h.arr (h.idx s) ⟨(h.arr (h.idx s)).st, k⟩ } : Heap K)
          (upd h.arr (h.idx s) ⟨(h.arr (h.idx s)).st, k⟩ (h.idx s)) (p := h.idx s)
          (by omega) (show h.size < i by omega) i (Nat.le_refl _)
        rw [w]
        simp only [upd]
        rw [if_neg (by omega)]
      next c => intro i _; rfl
  | deleteMin =>
    simp only [step, deleteMin] at ga ⊢
    by_cases z : h.size = 0
    · simp only [z, if_true]; intro i _; trivial
    · simp only [z, if_false] at ga ⊢
      intro i hi
      exact frame_percDown (n := i) _ _ (p := 1) (by omega) (show h.size - 1 < i by omega) i
        (Nat.le_refl _)
  | getMin =>
    simp only [step]
    split <;> (intro i _; rfl)
  | getMinKey => intro i _; rfl
  | inHeap s => intro i _; rfl
  | getKey s =>
    simp only [step]
    split <;> (intro i _; rfl)
  | isEmpty => intro i _; rfl
  | makeEmpty => intro i _; rfl
  | insertUnsafe s k =>
    simp only [step] at ga ⊢
    cases x : h.insertUnsafe s k with
    | error e => intro i _; simp only [lift, ascArr]
    | ok h' =>
      rw [x] at ga
      simp only [lift] at ga ⊢
      have spec := insertUnsafe_spec hb x
      have al' := spec.2.2.2.1 al
      have sz := spec.2.2.1
      unfold insertUnsafe at x
      split at x
      · cases x
      next h1 sc =>
        obtain ⟨ea, es, _⟩ := sizeCheck_spec sc
        split at x
        · cases x
        · cases x
          intro i hi
          have lt' := al'.lt
          rw [sz] at lt'
          simp only [place, upd]
          rw [if_neg (by rw [es]; omega), ea]
  | deleteUnsafe s =>
    simp only [step, deleteUnsafe] at ga ⊢
    by_cases z : h.idx s = 0
    · simp only [z, if_true, lift]; intro i _; trivial
    · simp only [z, if_false, lift] at ga ⊢
      have q := (hb.bwd s z).1
      intro i hi
      simp only [upd]
      rw [if_neg (by omega)]
  | updateUnsafe s k =>
    simp only [step, updateUnsafe] at ga ⊢
    by_cases z : h.idx s = 0
    · simp only [z, if_true, lift]; intro i _; trivial
    · simp only [z, if_false] at ga ⊢
      have q := (hb.bwd s z).1
      split
      next c =>
        simp only [c, ne_eq, not_false_eq_true, if_true, lift] at ga ⊢
        intro i hi
        simp only [upd]
        rw [if_neg (by omega)]
      next c => intro i _; rfl
  | makeHeap =>
    intro i hi
    simp only [step] at ga hi
    obtain ⟨_, p2, _⟩ := makeHeap_spec hb
    rw [p2.alloc] at hi
    exact frame_makeHeapLoop i (h.size / 2) h (by omega) (by omega) i (Nat.le_refl _)

end Heap
end Sbpl
