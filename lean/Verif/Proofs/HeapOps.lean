import Verif.Proofs.Heap
import Mathlib.Tactic.SplitIfs
/-!
# Effect of every heap operation on the abstract content, invariants preserved
-/
set_option linter.unusedSectionVars false

namespace Sbpl
namespace Heap

variable {K : Type} [LinearOrder K]

/-- `currentsize < allocated <= HEAPSIZE` -/
structure AllocOk (h : Heap K) : Prop where
  lt : h.size < h.alloc
  le : h.alloc ≤ HEAPSIZE

theorem place_keyOf_new (h : Heap K) (s : Nat) (k : K) (hb : BP h) (h0 : h.idx s = 0) :
    BP (({ h with size := h.size + 1 } : Heap K).place (h.size + 1) ⟨s, k⟩) ∧
    keyOf (({ h with size := h.size + 1 } : Heap K).place (h.size + 1) ⟨s, k⟩) =
      upd (keyOf h) s (some k) := by
  obtain ⟨f, b⟩ := hb
  refine ⟨⟨?_, ?_⟩, ?_⟩
  · intro i i1 i2
    simp only [place, upd] at i2 ⊢
    by_cases e : i = h.size + 1
    · simp [e]
    · have fi := f i i1 (by omega)
      simp only [e, if_false]
      split
      next e2 => rw [e2, h0] at fi; omega
      next e2 => exact fi
  · intro t ht
    simp only [place, upd] at ht ⊢
    by_cases e : t = s
    · simp [e]
    · simp only [e, if_false] at ht ⊢
      obtain ⟨q1, q2⟩ := b t ht
      refine ⟨by omega, ?_⟩
      rw [if_neg (by omega)]
      exact q2
  · funext t
    simp only [keyOf, kat, place, upd]
    by_cases e : t = s
    · simp [e]
    · simp only [e, if_false]
      split
      · rfl
      next e0 =>
        have := (b t e0).1
        rw [if_neg (by omega)]

theorem BP.grow {h : Heap K} (hb : BP h) : BP h.grow := ⟨hb.fwd, hb.bwd⟩
theorem keyOf_grow (h : Heap K) : keyOf h.grow = keyOf h := rfl

theorem sizeCheck_spec {h h1 : Heap K} (e : h.sizeCheck = .ok h1) :
    h1.arr = h.arr ∧ h1.size = h.size ∧ h1.idx = h.idx ∧ keyOf h1 = keyOf h ∧
    h.size ≠ HEAPSIZE - 1 ∧ (AllocOk h → AllocOk h1 ∧ h1.size + 1 < h1.alloc) := by
  unfold sizeCheck at e
  split at e
  · cases e
  next nf =>
    have nf' : h.size ≠ HEAPSIZE - 1 := by simpa [isFull] using nf
    split at e
    next g =>
      cases e
      refine ⟨rfl, rfl, rfl, rfl, nf', ?_⟩
      intro a
      have := a.lt; have := a.le
      have hs : HEAPSIZE = 20000000 := rfl
      unfold grow
      simp only
      split
      · exact ⟨⟨by simp only; omega, by simp⟩, by omega⟩
      · exact ⟨⟨by simp only; omega, by simp only; omega⟩, by omega⟩
    next g =>
      cases e
      refine ⟨rfl, rfl, rfl, rfl, nf', ?_⟩
      intro a
      have := a.lt
      exact ⟨a, by omega⟩

theorem insert_spec {h h' : Heap K} {s : Nat} {k : K} (hb : BP h) (e : h.insert s k = .ok h') :
    BP h' ∧ keyOf h' = upd (keyOf h) s (some k) ∧ h'.size = h.size + 1 ∧
    (Ordered h → Ordered h') ∧ (AllocOk h → AllocOk h') ∧ keyOf h s = none := by
  unfold insert at e
  split at e
  · cases e
  next h1 sc =>
    obtain ⟨ea, es, ei, ek, nf, al⟩ := sizeCheck_spec sc
    split at e
    · cases e
    next ni =>
      have ni0 : h1.idx s = 0 := by simpa using ni
      have hb1 : BP h1 := by
        obtain ⟨f, b⟩ := hb
        constructor
        · rw [ea, ei, es]; exact f
        · rw [ea, ei, es]; exact b
      obtain ⟨nb, nk⟩ := place_keyOf_new h1 s k hb1 ni0
      cases e
      obtain ⟨r1, r2, r3⟩ := percUp_spec ({ h1 with size := h1.size + 1 } : Heap K) (h1.size + 1)
        ⟨s, k⟩ (by omega) (by simp) nb
      refine ⟨r1, ?_, ?_, ?_, ?_, ?_⟩
      · funext t
        rw [r2.key t, nk, ek]
      · rw [r2.size, ← es]; rfl
      · intro ord
        apply r3
        constructor
        · intro i i1 i2 ine
          have i2 : i ≤ h1.size + 1 := i2
          have := ord i i1 (by omega) (by omega)
          have n : i / 2 ≠ h1.size + 1 := by omega
          simp only [kat_place, ine, n, if_false]
          simp only [kat, ea]
          exact this
        · intro i i1 i2 ie
          have i2 : i ≤ h1.size + 1 := i2
          omega
      · intro a
        obtain ⟨a1, a2⟩ := al a
        refine ⟨?_, ?_⟩
        · rw [r2.size, r2.alloc]; exact a2
        · rw [r2.alloc]; exact a1.le
      · simp [keyOf, ← ei, ni0]

theorem insert_ok_iff (h : Heap K) (s : Nat) (k : K) :
    (∃ h', h.insert s k = .ok h') ↔ h.size ≠ HEAPSIZE - 1 ∧ keyOf h s = none := by
  have ix : keyOf h s = none ↔ h.idx s = 0 := by simp [keyOf]
  rw [ix]
  unfold insert sizeCheck isFull grow
  by_cases a : h.size = HEAPSIZE - 1
  · simp [a]
  · have a' : (h.size == HEAPSIZE - 1) = false := by simp [a]
    simp only [a', ne_eq, a, not_false_eq_true, true_and]
    by_cases b : h.size + 1 = h.alloc <;> by_cases c : h.idx s = 0 <;> simp [b, c]

theorem delete_spec {h h' : Heap K} {s : Nat} (hb : BP h) (ho : Ordered h)
    (e : h.delete s = .ok h') :
    BP h' ∧ keyOf h' = upd (keyOf h) s none ∧ h'.size + 1 = h.size ∧
    Ordered h' ∧ (AllocOk h → AllocOk h') ∧ keyOf h s ≠ none := by
  unfold delete at e
  split at e
  · cases e
  next ni =>
    obtain ⟨f, b⟩ := hb
    have hpos : 1 ≤ h.idx s := by omega
    obtain ⟨hle, hst⟩ := b s ni
    have hs1 : h.size - 1 + 1 = h.size := by omega
    have ks : keyOf h s ≠ none := by simp [keyOf, ni]
    simp only at e
    by_cases last : h.idx s = h.size
    · -- deleting the last slot
      have lst : (h.arr h.size).st = s := by rw [← last]; exact hst
      -- result, up to the array content at the freed slot
      have key : h' = { h with size := h.size - 1, idx := upd h.idx s 0 } := by
        have pd : percUpOrDown ({ h with size := h.size - 1 } : Heap K) (h.idx s) (h.arr h.size) =
            { h with size := h.size - 1 } ∨
            percUpOrDown ({ h with size := h.size - 1 } : Heap K) (h.idx s) (h.arr h.size) =
            ({ h with size := h.size - 1 } : Heap K).place h.size (h.arr h.size) := by
          unfold percUpOrDown
          by_cases z : h.size - 1 = 0
          · left; simp [z]
          · right
            simp only [ne_eq, z, not_false_eq_true, if_true, last]
            have := ho h.size (by omega) (Nat.le_refl _) (by omega)
            simp only [kat] at this
            rw [if_neg (by rintro ⟨_, c⟩; exact this c)]
            unfold percDown
            simp only [ne_eq, z, not_false_eq_true, if_true]
            cases hz : h.size - 1 with
            | zero => omega
            | succ n =>
              rw [percDownLoop]
              simp only
              rw [if_neg (by omega)]
        rcases pd with p | p <;> rw [p] at e
        · cases e; rfl
        · cases e
          have e1 : upd h.arr h.size (h.arr h.size) = h.arr := by
            funext i; simp only [upd]; split
            next q => rw [q]
            next q => rfl
          have e2 : upd (upd h.idx (h.arr h.size).st h.size) s 0 = upd h.idx s 0 := by
            funext i; simp only [upd, lst]; split <;> rfl
          simp only [place, e1, e2]
      subst key
      refine ⟨⟨?_, ?_⟩, ?_, hs1, ?_, ?_, ks⟩
      · intro i i1 i2
        have i2 : i ≤ h.size - 1 := i2
        have fi := f i i1 (by omega)
        simp only [upd]
        split
        next q => rw [q] at fi; omega
        next q => exact fi
      · intro t ht
        simp only [upd] at ht ⊢
        split at ht
        · exact absurd rfl ht
        next q =>
          obtain ⟨q1, q2⟩ := b t ht
          simp only [q, if_false]
          have : h.idx t ≠ h.size := by
            intro c; rw [c, lst] at q2; exact q q2.symm
          exact ⟨by omega, q2⟩
      · funext t
        simp only [keyOf, upd, kat]
        by_cases q : t = s <;> simp [q]
      · intro i i1 i2 il
        have i2 : i ≤ h.size - 1 := i2
        exact ho i i1 (by omega) il
      · intro a
        exact ⟨by have := a.lt; simp only; omega, a.le⟩
    · -- inner slot
      have hlt : h.idx s < h.size := by omega
      have lne : (h.arr h.size).st ≠ s := by
        intro c
        have := f h.size (by omega) (Nat.le_refl _)
        rw [c] at this; omega
      -- the heap with the index of s already cleared
      let g : Heap K := { h with size := h.size - 1, idx := upd h.idx s 0 }
      have ex : EqExc s ({ h with size := h.size - 1 } : Heap K) g :=
        ⟨rfl, rfl, rfl, fun t ht => by simp [g, upd, ht]⟩
      have bg : BP (g.place (h.idx s) (h.arr h.size)) := by
        constructor
        · intro i i1 i2
          have i2 : i ≤ h.size - 1 := i2
          simp only [place, upd, g]
          by_cases q : i = h.idx s
          · simp [q]
          · simp only [q, if_false]
            have fi := f i i1 (by omega)
            have n1 : (h.arr i).st ≠ s := by intro c; rw [c] at fi; exact q fi.symm
            have n2 : (h.arr i).st ≠ (h.arr h.size).st := by
              intro c
              have := f h.size (by omega) (Nat.le_refl _)
              rw [c] at fi; omega
            simp only [n1, n2, if_false]
            exact fi
        · intro t ht
          simp only [place, upd, g] at ht ⊢
          by_cases q : t = (h.arr h.size).st
          · simp only [q, if_true]
            exact ⟨by omega, trivial⟩
          · simp only [q, if_false] at ht ⊢
            by_cases q2 : t = s
            · simp [q2] at ht
            · simp only [q2, if_false] at ht ⊢
              obtain ⟨w1, w2⟩ := b t ht
              have n1 : h.idx t ≠ h.size := by intro c; rw [c] at w2; exact q w2.symm
              have n2 : h.idx t ≠ h.idx s := by
                intro c; rw [c, hst] at w2; exact q2 w2.symm
              rw [if_neg n2]
              exact ⟨by omega, w2⟩
      have kg : keyOf (g.place (h.idx s) (h.arr h.size)) = upd (keyOf h) s none := by
        funext t
        simp only [keyOf, kat, place, upd, g]
        by_cases q : t = (h.arr h.size).st
        · have := f h.size (by omega) (Nat.le_refl _)
          have z : h.size ≠ 0 := by omega
          simp [q, lne, ni, this, z]
        · simp only [q, if_false]
          by_cases q2 : t = s
          · simp [q2]
          · simp only [q2, if_false]
            split
            · rfl
            next nz =>
              obtain ⟨w1, w2⟩ := b t nz
              have n2 : h.idx t ≠ h.idx s := by
                intro c; rw [c, hst] at w2; exact q2 w2.symm
              simp [n2]
      obtain ⟨r1, r2, r3⟩ := percUpOrDown_spec g (h.idx s) (h.arr h.size) hpos
        (show h.idx s ≤ h.size - 1 by omega) bg
      have ex2 := ex.percUpOrDown (h.idx s) (h.arr h.size)
      have z0 : (g.percUpOrDown (h.idx s) (h.arr h.size)).idx s = 0 := by
        have : keyOf (g.percUpOrDown (h.idx s) (h.arr h.size)) s = none := by
          rw [r2.key s, kg]; simp
        simpa [keyOf] using this
      have heq : h' = g.percUpOrDown (h.idx s) (h.arr h.size) := by
        cases e
        generalize g.percUpOrDown (h.idx s) (h.arr h.size) = G at *
        cases G
        obtain ⟨x1, x2, x3, x4⟩ := ex2
        simp only at x1 x2 x3 x4 z0
        simp only [x1, x2, x3, Heap.mk.injEq, true_and]
        funext t
        simp only [upd]
        split
        next q => rw [q, z0]
        next q => exact x4 t q
      subst heq
      refine ⟨r1, ?_, ?_, ?_, ?_, ks⟩
      · funext t; rw [r2.key t, kg]
      · rw [r2.size]; exact hs1
      · apply r3
        constructor
        · intro i i1 i2 n1 n2
          have i2 : i ≤ h.size - 1 := i2
          simp only [kat_place, n1, n2, if_false]
          exact ho i i1 (by omega) (by omega)
        · intro i i1 i2 ie hh
          have i2 : i ≤ h.size - 1 := i2
          have n1 : i ≠ h.idx s := by omega
          have n2 : h.idx s / 2 ≠ h.idx s := by omega
          simp only [kat_place, n1, n2, if_false]
          have o1 := ho i i1 (by omega) (by omega)
          have o2 := ho (h.idx s) hh hle (by omega)
          rw [ie] at o1
          rw [not_lt] at o1 o2 ⊢
          exact le_trans o2 o1
      · intro a
        have := a.lt
        refine ⟨?_, ?_⟩
        · rw [r2.size, r2.alloc]
          show h.size - 1 < h.alloc
          omega
        · rw [r2.alloc]; exact a.le

theorem delete_ok_iff (h : Heap K) (s : Nat) :
    (∃ h', h.delete s = .ok h') ↔ keyOf h s ≠ none := by
  unfold delete
  by_cases c : h.idx s = 0 <;> simp [keyOf, c]

theorem update_spec {h h' : Heap K} {s : Nat} {k : K} (hb : BP h) (ho : Ordered h)
    (e : h.update s k = .ok h') :
    BP h' ∧ keyOf h' = upd (keyOf h) s (some k) ∧ h'.size = h.size ∧
    Ordered h' ∧ (AllocOk h → AllocOk h') ∧ keyOf h s ≠ none := by
  unfold update at e
  split at e
  · cases e
  next ni =>
    obtain ⟨f, b⟩ := hb
    have ks : keyOf h s ≠ none := by simp [keyOf, ni]
    obtain ⟨hle, hst⟩ := b s ni
    split at e
    next ne =>
      simp only [upd_same] at e
      let i0 := h.idx s
      let el : HElem K := ⟨(h.arr (h.idx s)).st, k⟩
      let g : Heap K := { h with arr := upd h.arr (h.idx s) el }
      have pl : g.place (h.idx s) el = g := by
        simp only [place, g]
        congr 1
        · funext i; simp only [upd]; split <;> rfl
        · funext t; simp only [upd, el, hst]; split
          next q => rw [q]
          next q => rfl
      have kg : ∀ i, g.kat i = if i = h.idx s then k else h.kat i := by
        intro i; simp only [g, kat, upd]; split <;> rfl
      have bg : BP g := by
        constructor
        · intro i i1 i2
          have fi := f i i1 i2
          simp only [g, upd]
          split
          next q => simp only [el]; rw [← q]; exact fi
          next q => exact fi
        · intro t ht
          obtain ⟨w1, w2⟩ := b t ht
          refine ⟨w1, ?_⟩
          simp only [g, upd]
          split
          next q => simp only [el]; rw [← q]; exact w2
          next q => exact w2
      obtain ⟨r1, r2, r3⟩ := percUpOrDown_spec g (h.idx s) el (by omega) hle (by rw [pl]; exact bg)
      rw [pl] at r2 r3
      cases e
      refine ⟨r1, ?_, r2.size, ?_, ?_, ks⟩
      · funext t
        rw [r2.key t]
        simp only [keyOf, kg, upd]
        by_cases q : t = s
        · simp only [q, if_true]
          rw [if_neg (show ¬ g.idx s = 0 from ni)]
          rw [if_pos (show g.idx s = h.idx s from rfl)]
        · simp only [q, if_false]
          by_cases z : h.idx t = 0
          · rw [if_pos (show g.idx t = 0 from z), if_pos z]
          · rw [if_neg (show ¬ g.idx t = 0 from z), if_neg z, if_neg]
            intro c
            have c : h.idx t = h.idx s := c
            obtain ⟨_, w2⟩ := b t z
            rw [c, hst] at w2
            exact q w2.symm
      · apply r3
        constructor
        · intro i i1 i2 n1 n2
          simp only [kg, n1, n2, if_false]
          exact ho i i1 i2 (by omega)
        · intro i i1 i2 ie hh
          have n1 : i ≠ h.idx s := by omega
          have n2 : h.idx s / 2 ≠ h.idx s := by omega
          simp only [kg, n1, n2, if_false]
          have o1 := ho i i1 i2 (by omega)
          have o2 := ho (h.idx s) hh hle (by omega)
          rw [ie] at o1
          rw [not_lt] at o1 o2 ⊢
          exact le_trans o2 o1
      · intro a
        refine ⟨?_, ?_⟩
        · rw [r2.size, r2.alloc]; exact a.lt
        · rw [r2.alloc]; exact a.le
    next ne =>
      cases e
      have ne' : (h.arr (h.idx s)).key = k := by simpa using ne
      refine ⟨⟨f, b⟩, ?_, rfl, ho, fun a => a, ks⟩
      funext t
      simp only [upd]
      split
      next q => simp [q, keyOf, ni, kat, ne']
      next q => rfl

theorem update_ok_iff (h : Heap K) (s : Nat) (k : K) :
    (∃ h', h.update s k = .ok h') ↔ keyOf h s ≠ none := by
  unfold update
  by_cases c : h.idx s = 0
  · simp [keyOf, c]
  · simp only [c, if_false]
    constructor
    · intro _; simp [keyOf, c]
    · intro _; split <;> exact ⟨_, rfl⟩

/-- In an ordered heap the root is a minimum. -/
theorem root_min {h : Heap K} (ho : Ordered h) : ∀ i, 1 ≤ i → i ≤ h.size → h.kat 1 ≤ h.kat i := by
  intro i
  induction i using Nat.strongRecOn with
  | ind i ih =>
    intro i1 i2
    by_cases c : i = 1
    · rw [c]
    · have o := ho i (by omega) i2 (by omega)
      rw [not_lt] at o
      exact le_trans (ih (i / 2) (by omega) (by omega) (by omega)) o

theorem keyOf_slot {h : Heap K} (hb : BP h) {i : Nat} (i1 : 1 ≤ i) (i2 : i ≤ h.size) :
    keyOf h (h.arr i).st = some (h.kat i) := by
  have := hb.fwd i i1 i2
  simp only [keyOf, this]
  rw [if_neg (by omega)]

theorem slot_of_keyOf {h : Heap K} (hb : BP h) {s : Nat} {k : K} (e : keyOf h s = some k) :
    ∃ i, 1 ≤ i ∧ i ≤ h.size ∧ (h.arr i).st = s ∧ h.kat i = k := by
  simp only [keyOf] at e
  split at e
  · cases e
  next c =>
    obtain ⟨w1, w2⟩ := hb.bwd s c
    cases e
    exact ⟨h.idx s, by omega, w1, w2, rfl⟩

theorem min_le {h : Heap K} (hb : BP h) (ho : Ordered h) {s : Nat} {k : K}
    (e : keyOf h s = some k) : h.kat 1 ≤ k := by
  obtain ⟨i, a, b, _, d⟩ := slot_of_keyOf hb e
  rw [← d]; exact root_min ho i a b

theorem deleteMin_spec {h h' : Heap K} {s : Nat} (hb : BP h) (ho : Ordered h)
    (e : h.deleteMin = .ok (s, h')) :
    BP h' ∧ keyOf h' = upd (keyOf h) s none ∧ h'.size + 1 = h.size ∧
    Ordered h' ∧ (AllocOk h → AllocOk h') ∧
    (∃ k, keyOf h s = some k ∧ k = h.kat 1 ∧ ∀ t k', keyOf h t = some k' → k ≤ k') := by
  unfold deleteMin at e
  split at e
  · cases e
  next nz =>
    have hb0 := hb
    obtain ⟨f, b⟩ := hb
    have f1 := f 1 (Nat.le_refl _) (by omega)
    simp only [Except.ok.injEq, Prod.mk.injEq] at e
    obtain ⟨e1, e2⟩ := e
    have ks : keyOf h s = some (h.kat 1) := by
      rw [← e1]; exact keyOf_slot hb0 (Nat.le_refl _) (by omega)
    have hmin : (∃ k, keyOf h s = some k ∧ k = h.kat 1 ∧
        ∀ t k', keyOf h t = some k' → k ≤ k') :=
      ⟨_, ks, rfl, fun t k' w => min_le hb0 ho w⟩
    rw [e1] at f1 e2
    let g : Heap K := { h with size := h.size - 1, idx := upd h.idx s 0 }
    by_cases one : h.size = 1
    · -- the heap becomes empty
      have : h' = g := by
        rw [← e2]
        simp only [percDown, one]
        simp [g, one]
      subst this
      refine ⟨⟨?_, ?_⟩, ?_, ?_, ?_, ?_, hmin⟩
      · intro i i1 i2
        have i2 : i ≤ h.size - 1 := i2
        omega
      · intro t ht
        simp only [g, upd] at ht ⊢
        split at ht
        · exact absurd rfl ht
        next q =>
          obtain ⟨w1, w2⟩ := b t ht
          have : h.idx t = 1 := by omega
          rw [this, e1] at w2
          exact absurd w2.symm q
      · funext t
        simp only [keyOf, kat, g, upd]
        by_cases q : t = s <;> simp [q]
      · show h.size - 1 + 1 = h.size
        omega
      · intro i i1 i2 _
        have i2 : i ≤ h.size - 1 := i2
        omega
      · intro a
        have := a.lt
        exact ⟨show h.size - 1 < h.alloc by omega, a.le⟩
    · have lne : (h.arr h.size).st ≠ s := by
        intro c
        have := f h.size (by omega) (Nat.le_refl _)
        rw [c] at this; omega
      have bg : BP (g.place 1 (h.arr h.size)) := by
        constructor
        · intro i i1 i2
          have i2 : i ≤ h.size - 1 := i2
          simp only [place, upd, g]
          by_cases q : i = 1
          · simp [q]
          · simp only [q, if_false]
            have fi := f i i1 (by omega)
            have n1 : (h.arr i).st ≠ s := by intro c; rw [c] at fi; omega
            have n2 : (h.arr i).st ≠ (h.arr h.size).st := by
              intro c
              have := f h.size (by omega) (Nat.le_refl _)
              rw [c] at fi; omega
            simp only [n1, n2, if_false]
            exact fi
        · intro t ht
          simp only [place, upd, g] at ht ⊢
          by_cases q : t = (h.arr h.size).st
          · simp only [q, if_true]
            exact ⟨by omega, trivial⟩
          · simp only [q, if_false] at ht ⊢
            by_cases q2 : t = s
            · simp [q2] at ht
            · simp only [q2, if_false] at ht ⊢
              obtain ⟨w1, w2⟩ := b t ht
              have n1 : h.idx t ≠ h.size := by intro c; rw [c] at w2; exact q w2.symm
              have n2 : h.idx t ≠ 1 := by
                intro c; rw [c, e1] at w2; exact q2 w2.symm
              rw [if_neg n2]
              exact ⟨by omega, w2⟩
      have kg : keyOf (g.place 1 (h.arr h.size)) = upd (keyOf h) s none := by
        funext t
        simp only [keyOf, kat, place, upd, g]
        by_cases q : t = (h.arr h.size).st
        · have := f h.size (by omega) (Nat.le_refl _)
          have z : h.size ≠ 0 := by omega
          simp [q, lne, this, z]
        · simp only [q, if_false]
          by_cases q2 : t = s
          · simp [q2]
          · simp only [q2, if_false]
            split
            · rfl
            next nz =>
              obtain ⟨w1, w2⟩ := b t nz
              have n2 : h.idx t ≠ 1 := by
                intro c; rw [c, e1] at w2; exact q2 w2.symm
              simp [n2]
      obtain ⟨r1, r2, r3⟩ := percDown_spec 1 g 1 (h.arr h.size) (Nat.le_refl _)
        (show 1 ≤ h.size - 1 by omega) bg
      have : h' = g.percDown 1 (h.arr h.size) := e2.symm
      subst this
      refine ⟨r1, ?_, ?_, ?_, ?_, hmin⟩
      · funext t; rw [r2.key t, kg]
      · rw [r2.size]
        show h.size - 1 + 1 = h.size
        omega
      · apply r3 (Nat.le_refl _)
        constructor
        · intro i i1 i2 il n2
          have i2 : i ≤ h.size - 1 := i2
          have n1 : i ≠ 1 := by omega
          simp only [kat_place, n1, n2, if_false]
          exact ho i i1 (by omega) il
        · intro i i1 i2 ie hh
          omega
      · intro a
        have := a.lt
        refine ⟨?_, ?_⟩
        · rw [r2.size, r2.alloc]
          show h.size - 1 < h.alloc
          omega
        · rw [r2.alloc]; exact a.le

theorem clearIdx_le (arr : Nat → HElem K) (idx : Nat → Nat) (n t : Nat) :
    (∃ i, 1 ≤ i ∧ i ≤ n ∧ (arr i).st = t) → clearIdx arr idx n t = 0 := by
  induction n with
  | zero => rintro ⟨i, a, b, _⟩; omega
  | succ n ih =>
    rintro ⟨i, a, b, c⟩
    simp only [clearIdx, upd]
    split
    · rfl
    next q =>
      apply ih
      refine ⟨i, a, ?_, c⟩
      have : i ≠ n + 1 := by intro d; rw [d] at c; exact q c.symm
      omega

theorem clearIdx_zero (arr : Nat → HElem K) (idx : Nat → Nat) (n t : Nat) (z : idx t = 0) :
    clearIdx arr idx n t = 0 := by
  induction n with
  | zero => exact z
  | succ n ih => simp only [clearIdx, upd]; split <;> simp [ih]

theorem makeEmpty_spec {h : Heap K} (hb : BP h) :
    BP h.makeEmpty ∧ (∀ s, keyOf h.makeEmpty s = none) ∧ h.makeEmpty.size = 0 ∧
    Ordered h.makeEmpty ∧ (AllocOk h → AllocOk h.makeEmpty) := by
  have z : ∀ s, h.makeEmpty.idx s = 0 := by
    intro s
    simp only [makeEmpty]
    by_cases c : h.idx s = 0
    · exact clearIdx_zero _ _ _ _ c
    · obtain ⟨a, b⟩ := hb.bwd s c
      exact clearIdx_le _ _ _ _ ⟨h.idx s, by omega, a, b⟩
  refine ⟨⟨?_, ?_⟩, ?_, rfl, ?_, ?_⟩
  · intro i a b
    have b : i ≤ 0 := b
    omega
  · intro s hs; exact absurd (z s) hs
  · intro s; simp [keyOf, z s]
  · intro i a b
    have b : i ≤ 0 := b
    omega
  · intro a
    have := a.lt
    exact ⟨show 0 < h.alloc by omega, a.le⟩

theorem place_self {h : Heap K} (hb : BP h) {i : Nat} (i1 : 1 ≤ i) (i2 : i ≤ h.size) :
    h.place i (h.arr i) = h := by
  have e1 : upd h.arr i (h.arr i) = h.arr := by
    funext j; simp only [upd]; split
    next q => rw [q]
    next q => rfl
  have e2 : upd h.idx (h.arr i).st i = h.idx := by
    funext j; simp only [upd]; split
    next q => rw [q]; exact (hb.fwd i i1 i2).symm
    next q => rfl
  simp only [place, e1, e2]

theorem makeHeapLoop_spec (n : Nat) : ∀ (h : Heap K), BP h → n ≤ h.size → OrdFrom (n + 1) h →
    BP (makeHeapLoop h n) ∧ Same (makeHeapLoop h n) h ∧ Ordered (makeHeapLoop h n) := by
  induction n with
  | zero => intro h hb _ ho; exact ⟨hb, Same.refl _, ho⟩
  | succ n ih =>
    intro h hb hn ho
    have ps := place_self hb (i := n + 1) (by omega) hn
    obtain ⟨r1, r2, r3⟩ := percDown_spec (n + 1) h (n + 1) (h.arr (n + 1)) (by omega) hn
      (by rw [ps]; exact hb)
    rw [ps] at r2 r3
    rw [makeHeapLoop]
    have r4 := r3 (Nat.le_refl _) ⟨fun i a b c d => ho i a b (by omega), fun i a b c d e => by omega⟩
    obtain ⟨a, b, c⟩ := ih _ r1 (by rw [r2.size]; omega) r4
    exact ⟨a, b.trans r2, c⟩

theorem makeHeap_spec {h : Heap K} (hb : BP h) :
    BP h.makeHeap ∧ Same h.makeHeap h ∧ Ordered h.makeHeap := by
  apply makeHeapLoop_spec _ h hb (by omega)
  intro i a b c
  omega

theorem insertUnsafe_spec {h h' : Heap K} {s : Nat} {k : K} (hb : BP h)
    (e : h.insertUnsafe s k = .ok h') :
    BP h' ∧ keyOf h' = upd (keyOf h) s (some k) ∧ h'.size = h.size + 1 ∧
    (AllocOk h → AllocOk h') ∧ keyOf h s = none := by
  unfold insertUnsafe at e
  split at e
  · cases e
  next h1 sc =>
    obtain ⟨ea, es, ei, ek, nf, al⟩ := sizeCheck_spec sc
    split at e
    · cases e
    next ni =>
      have ni0 : h1.idx s = 0 := by simpa using ni
      have hb1 : BP h1 := by
        obtain ⟨f, b⟩ := hb
        constructor
        · rw [ea, ei, es]; exact f
        · rw [ea, ei, es]; exact b
      obtain ⟨nb, nk⟩ := place_keyOf_new h1 s k hb1 ni0
      cases e
      refine ⟨nb, ?_, ?_, ?_, ?_⟩
      · rw [← ek]; exact nk
      · rw [← es]; rfl
      · intro a
        obtain ⟨a1, a2⟩ := al a
        exact ⟨a2, a1.le⟩
      · simp [keyOf, ← ei, ni0]

theorem deleteUnsafe_spec {h h' : Heap K} {s : Nat} (hb : BP h)
    (e : h.deleteUnsafe s = .ok h') :
    BP h' ∧ keyOf h' = upd (keyOf h) s none ∧ h'.size + 1 = h.size ∧
    (AllocOk h → AllocOk h') ∧ keyOf h s ≠ none := by
  unfold deleteUnsafe at e
  split at e
  · cases e
  next ni =>
    obtain ⟨f, b⟩ := hb
    obtain ⟨hle, hst⟩ := b s ni
    have ks : keyOf h s ≠ none := by simp [keyOf, ni]
    cases e
    have fl := f h.size (by omega) (Nat.le_refl _)
    refine ⟨⟨?_, ?_⟩, ?_, ?_, ?_, ks⟩
    · intro i i1 i2
      have i2 : i ≤ h.size - 1 := i2
      have fi := f i i1 (by omega)
      simp only [upd, if_true]
      by_cases q : i = h.idx s
      · simp only [q, if_true]
        rw [if_neg]
        intro c; rw [c] at fl; omega
      · simp only [q, if_false]
        rw [if_neg (by intro c; rw [c] at fi; exact q fi.symm), if_neg]
        · exact fi
        · intro c; rw [c] at fi; omega
    · intro t ht
      simp only [upd, if_true] at ht ⊢
      by_cases q : t = s
      · simp [q] at ht
      · simp only [q, if_false] at ht ⊢
        by_cases q2 : t = (h.arr h.size).st
        · simp only [q2, if_true]
          refine ⟨?_, trivial⟩
          have : h.idx s ≠ h.size := by
            intro c; rw [← c, hst] at q2; exact q q2
          omega
        · simp only [q2, if_false] at ht ⊢
          obtain ⟨w1, w2⟩ := b t ht
          have n1 : h.idx t ≠ h.size := by intro c; rw [c] at w2; exact q2 w2.symm
          have n2 : h.idx t ≠ h.idx s := by intro c; rw [c, hst] at w2; exact q w2.symm
          rw [if_neg n2]
          exact ⟨by omega, w2⟩
    · funext t
      simp only [keyOf, kat, upd, if_true]
      by_cases q : t = s
      · simp [q]
      · simp only [q, if_false]
        by_cases q2 : t = (h.arr h.size).st
        · have z : h.size ≠ 0 := by omega
          simp only [q2, if_true]
          simp [ni, fl, z]
        · simp only [q2, if_false]
          by_cases z : h.idx t = 0
          · simp [z]
          · obtain ⟨w1, w2⟩ := b t z
            have n2 : h.idx t ≠ h.idx s := by intro c; rw [c, hst] at w2; exact q w2.symm
            simp [z, n2]
    · show h.size - 1 + 1 = h.size
      omega
    · intro a
      have := a.lt
      exact ⟨show h.size - 1 < h.alloc by omega, a.le⟩

theorem updateUnsafe_spec {h h' : Heap K} {s : Nat} {k : K} (hb : BP h)
    (e : h.updateUnsafe s k = .ok h') :
    BP h' ∧ keyOf h' = upd (keyOf h) s (some k) ∧ h'.size = h.size ∧
    (AllocOk h → AllocOk h') ∧ keyOf h s ≠ none := by
  unfold updateUnsafe at e
  split at e
  · cases e
  next ni =>
    obtain ⟨f, b⟩ := hb
    obtain ⟨hle, hst⟩ := b s ni
    have ks : keyOf h s ≠ none := by simp [keyOf, ni]
    split at e
    · cases e
      refine ⟨⟨?_, ?_⟩, ?_, rfl, fun a => ⟨a.lt, a.le⟩, ks⟩
      · intro i i1 i2
        have fi := f i i1 i2
        simp only [upd]
        split
        next q => rw [← q]; exact fi
        next q => exact fi
      · intro t ht
        obtain ⟨w1, w2⟩ := b t ht
        refine ⟨w1, ?_⟩
        simp only [upd]
        split
        next q => rw [← q]; exact w2
        next q => exact w2
      · funext t
        simp only [keyOf, kat, upd]
        by_cases q : t = s
        · simp [q, ni]
        · simp only [q, if_false]
          by_cases z : h.idx t = 0
          · simp [z]
          · obtain ⟨w1, w2⟩ := b t z
            have n2 : h.idx t ≠ h.idx s := by intro c; rw [c, hst] at w2; exact q w2.symm
            simp [z, n2]
    next ne =>
      cases e
      have ne' : (h.arr (h.idx s)).key = k := by simpa using ne
      refine ⟨⟨f, b⟩, ?_, rfl, fun a => a, ks⟩
      funext t
      simp only [upd]
      split
      next q => simp [q, keyOf, ni, kat, ne']
      next q => rfl

end Heap
end Sbpl
