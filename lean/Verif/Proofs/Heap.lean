import Verif.Model.Heap
import Mathlib.Tactic.SplitIfs
/-!
# Invariants of the heap model and their preservation by every operation
-/

set_option linter.unusedSectionVars false

namespace Sbpl
namespace Heap

variable {K : Type} [LinearOrder K]

/-- Back-pointers and array agree. -/
structure BP (h : Heap K) : Prop where
  fwd : ∀ i, 1 ≤ i → i ≤ h.size → h.idx (h.arr i).st = i
  bwd : ∀ s, h.idx s ≠ 0 → h.idx s ≤ h.size ∧ (h.arr (h.idx s)).st = s

/-- key at a slot -/
def kat (h : Heap K) (i : Nat) : K := (h.arr i).key

/-- heap order for every edge whose parent is at position ≥ l -/
def OrdFrom (l : Nat) (h : Heap K) : Prop :=
  ∀ i, 2 ≤ i → i ≤ h.size → l ≤ i / 2 → ¬ h.kat i < h.kat (i / 2)

def Ordered (h : Heap K) : Prop := OrdFrom 1 h

/-- abstract content -/
def keyOf (h : Heap K) (s : Nat) : Option K :=
  if h.idx s = 0 then none else some (h.kat (h.idx s))

theorem kat_place (h : Heap K) (p : Nat) (e : HElem K) (i : Nat) :
    (h.place p e).kat i = if i = p then e.key else h.kat i := by
  simp only [kat, place, upd]; split <;> rfl

/-- Moving element `p` into the hole and the hole to `p` keeps content and back-pointers of the
filled heap. -/
theorem swap_bp (h : Heap K) {hole p : Nat} {tmp : HElem K}
    (hb : BP (h.place hole tmp)) (h1 : 1 ≤ hole) (h2 : hole ≤ h.size)
    (p1 : 1 ≤ p) (p2 : p ≤ h.size) (hne : p ≠ hole) :
    BP ((h.place hole (h.arr p)).place p tmp) := by
  obtain ⟨f, b⟩ := hb
  simp only [place, upd] at f b
  have ne : (h.arr p).st ≠ tmp.st := by
    intro e
    have fp := f p p1 p2
    simp [hne, e] at fp
    omega
  constructor
  · intro i i1 i2
    have fi := f i i1 i2
    simp only [place, upd] at i2 ⊢
    by_cases e1 : i = p
    · subst e1; simp
    · by_cases e2 : i = hole
      · subst e2; simp [e1, ne]
      · simp [e1, e2] at fi ⊢
        by_cases e3 : (h.arr i).st = tmp.st
        · simp [e3] at fi; omega
        · simp [e3] at fi ⊢
          by_cases e4 : (h.arr i).st = (h.arr p).st
          · have fp := f p p1 p2
            simp [hne, ne] at fp
            rw [e4] at fi; omega
          · simp [e4]; exact fi
  · intro s hs
    have bs := b s
    simp only [place, upd] at hs ⊢
    by_cases e1 : s = tmp.st
    · subst e1; simp [p2]
    · simp [e1] at hs bs ⊢
      by_cases e2 : s = (h.arr p).st
      · subst e2; simp [Ne.symm hne, h2]
      · simp [e2] at hs ⊢
        have ⟨q1, q2⟩ := bs hs
        by_cases e3 : h.idx s = hole
        · simp [e3] at q2; exact absurd q2.symm e1
        · simp [e3] at q2
          by_cases e4 : h.idx s = p
          · rw [e4] at q2; exact absurd q2.symm e2
          · simp [e3, e4, q1, q2]

theorem swap_keyOf (h : Heap K) {hole p : Nat} {tmp : HElem K}
    (hb : BP (h.place hole tmp)) (h1 : 1 ≤ hole)
    (p1 : 1 ≤ p) (p2 : p ≤ h.size) (hne : p ≠ hole) (s : Nat) :
    keyOf ((h.place hole (h.arr p)).place p tmp) s = keyOf (h.place hole tmp) s := by
  obtain ⟨f, b⟩ := hb
  simp only [place, upd] at f b
  have fp := f p p1 p2
  have ne : (h.arr p).st ≠ tmp.st := by
    intro e
    simp [hne, e] at fp
    omega
  simp [hne, ne] at fp
  have bs := b s
  simp only [keyOf, kat, place, upd] at *
  by_cases e1 : s = tmp.st
  · subst e1
    have : p ≠ 0 := by omega
    have : hole ≠ 0 := by omega
    simp [*]
  · simp [e1] at bs ⊢
    by_cases e2 : s = (h.arr p).st
    · subst e2
      have : p ≠ 0 := by omega
      have : hole ≠ 0 := by omega
      simp [fp, *, Ne.symm hne]
    · simp [e2]
      by_cases e0 : h.idx s = 0
      · simp [e0]
      · have ⟨q1, q2⟩ := bs e0
        by_cases e3 : h.idx s = hole
        · simp [e3] at q2; exact absurd q2.symm e1
        · simp [e3] at q2
          by_cases e4 : h.idx s = p
          · rw [e4] at q2; exact absurd q2.symm e2
          · simp [e3, e4, e0]

/-- Same content, size and allocation. -/
structure Same (a b : Heap K) : Prop where
  size : a.size = b.size
  alloc : a.alloc = b.alloc
  key : ∀ s, keyOf a s = keyOf b s

theorem Same.refl (a : Heap K) : Same a a := ⟨rfl, rfl, fun _ => rfl⟩
theorem Same.trans {a b c : Heap K} (x : Same a b) (y : Same b c) : Same a c :=
  ⟨x.size.trans y.size, x.alloc.trans y.alloc, fun s => (x.key s).trans (y.key s)⟩

/-- order for all edges except the parent edge of the hole; children of the hole are above the
hole's parent -/
structure UpPre (h : Heap K) (hole : Nat) : Prop where
  oth : ∀ i, 2 ≤ i → i ≤ h.size → i ≠ hole → ¬ h.kat i < h.kat (i / 2)
  gp : ∀ i, 2 ≤ i → i ≤ h.size → i / 2 = hole → 2 ≤ hole → ¬ h.kat i < h.kat (hole / 2)

theorem percUpLoop_spec (fuel : Nat) : ∀ (h : Heap K) (hole : Nat) (tmp : HElem K),
    hole ≤ fuel → 1 ≤ hole → hole ≤ h.size → BP (h.place hole tmp) →
    BP (percUpLoop fuel h hole tmp) ∧ Same (percUpLoop fuel h hole tmp) (h.place hole tmp) ∧
    (UpPre (h.place hole tmp) hole → Ordered (percUpLoop fuel h hole tmp)) := by
  induction fuel with
  | zero => intro h hole tmp a b; omega
  | succ fuel ih =>
    intro h hole tmp hf h1 h2 hb
    rw [percUpLoop]
    split
    next c =>
      obtain ⟨c1, c2⟩ := c
      have p1 : 1 ≤ hole / 2 := by omega
      have p2 : hole / 2 ≤ h.size := by omega
      have pne : hole / 2 ≠ hole := by omega
      have bs := swap_bp h hb h1 h2 p1 p2 pne
      obtain ⟨r1, r2, r3⟩ := ih (h.place hole (h.arr (hole / 2))) (hole / 2) tmp (by omega) p1 p2 bs
      refine ⟨r1, r2.trans ⟨rfl, rfl, fun s => swap_keyOf h hb h1 p1 p2 pne s⟩, ?_⟩
      intro up
      apply r3
      have ho := up.oth
      have hg := up.gp
      have kp : h.kat (hole / 2) = (h.arr (hole / 2)).key := rfl
      constructor
      · intro i i1 i2 ine
        have oi := ho i i1 i2
        have gi := hg i i1 i2
        have op := ho (hole / 2)
        simp only [kat_place] at oi gi op ⊢
        by_cases e1 : i = hole
        · subst e1
          simp only [if_true]
          rw [if_neg ine]
          simp only [not_lt]
          exact le_of_lt c2
        · have oi := oi e1
          simp only [ine, e1, if_false] at oi gi ⊢
          by_cases e2 : i / 2 = hole / 2
          · simp only [e2, if_true]
            have : hole / 2 ≠ hole := pne
            simp only [e2, this, if_false] at oi
            rw [not_lt] at oi ⊢
            exact le_trans (le_of_lt c2) oi
          · simp only [e2, if_false]
            by_cases e3 : i / 2 = hole
            · simp only [e3, if_true]
              have := gi e3 (by omega)
              simpa [pne, kp] using this
            · simp only [e3, if_false] at oi ⊢
              exact oi
      · intro i i1 i2 ie pp
        have oi := ho i i1 i2
        have op := ho (hole / 2) pp p2 pne
        simp only [kat_place] at oi op ⊢
        have n1 : hole / 2 / 2 ≠ hole := by omega
        have n2 : hole / 2 / 2 ≠ hole / 2 := by omega
        have n3 : i ≠ hole / 2 := by omega
        simp only [n1, n2, n3, pne, if_false] at op ⊢
        by_cases e1 : i = hole
        · simp only [e1, if_true]
          exact op
        · simp only [e1, if_false]
          have := oi e1
          simp only [e1, ie, pne, if_false] at this
          rw [not_lt] at this op ⊢
          exact le_trans op this
    next c =>
      refine ⟨hb, Same.refl _, ?_⟩
      intro up i i1 i2 _
      by_cases e : i = hole
      · subst e
        have n : ¬ i / 2 = i := by omega
        simp only [kat_place, if_true, n, if_false]
        intro lt
        exact c ⟨by omega, lt⟩
      · exact up.oth i i1 i2 e

/-- order for all edges with parent ≥ l except the child edges of the hole -/
structure DownPre (l : Nat) (h : Heap K) (hole : Nat) : Prop where
  oth : ∀ i, 2 ≤ i → i ≤ h.size → l ≤ i / 2 → i / 2 ≠ hole → ¬ h.kat i < h.kat (i / 2)
  gp : ∀ i, 2 ≤ i → i ≤ h.size → i / 2 = hole → 2 ≤ hole → l ≤ hole / 2 →
    ¬ h.kat i < h.kat (hole / 2)

theorem percDownLoop_spec (l : Nat) (fuel : Nat) : ∀ (h : Heap K) (hole : Nat) (tmp : HElem K),
    h.size < hole + fuel → 1 ≤ hole → hole ≤ h.size → BP (h.place hole tmp) →
    BP (percDownLoop fuel h hole tmp) ∧ Same (percDownLoop fuel h hole tmp) (h.place hole tmp) ∧
    (l ≤ hole → DownPre l (h.place hole tmp) hole → OrdFrom l (percDownLoop fuel h hole tmp)) := by
  induction fuel with
  | zero => intro h hole tmp a b; omega
  | succ fuel ih =>
    intro h hole tmp hf h1 h2 hb
    rw [percDownLoop]
    split
    next hc =>
      -- facts about the selected child
      have pc : (h.pickChild hole = 2 * hole ∨ h.pickChild hole = 2 * hole + 1) ∧
          h.pickChild hole ≤ h.size ∧
          (∀ i, 2 ≤ i → i ≤ h.size → i / 2 = hole →
            ¬ h.kat i < h.kat (h.pickChild hole)) := by
        unfold pickChild
        split
        next c =>
          refine ⟨Or.inr rfl, by omega, ?_⟩
          intro i _ i2 ie
          have : i = 2 * hole ∨ i = 2 * hole + 1 := by omega
          rcases this with e | e
          · subst e; exact not_lt.mpr (le_of_lt c.2)
          · subst e; exact lt_irrefl _
        next c =>
          refine ⟨Or.inl rfl, by omega, ?_⟩
          intro i _ i2 ie
          have : i = 2 * hole ∨ i = 2 * hole + 1 := by omega
          rcases this with e | e
          · subst e; exact lt_irrefl _
          · subst e
            intro lt
            exact c ⟨by omega, lt⟩
      obtain ⟨pc1, p2, pmin⟩ := pc
      generalize h.pickChild hole = p at *
      have p1 : 1 ≤ p := by omega
      have pne : p ≠ hole := by omega
      have pd : p / 2 = hole := by omega
      simp only
      split
      next c =>
        have bs := swap_bp h hb h1 h2 p1 p2 pne
        obtain ⟨r1, r2, r3⟩ := ih (h.place hole (h.arr p)) p tmp (by simp only [place]; omega) p1 p2 bs
        refine ⟨r1, r2.trans ⟨rfl, rfl, fun s => swap_keyOf h hb h1 p1 p2 pne s⟩, ?_⟩
        intro lh dp
        apply r3 (by omega)
        have ho := dp.oth
        have hg := dp.gp
        have kp : h.kat p = (h.arr p).key := rfl
        constructor
        · intro i i1 i2 il ine
          have oi := ho i i1 i2 il
          have gh := hg p (by omega) p2 pd
          have pm := pmin i i1 i2
          simp only [kat_place] at oi gh ⊢
          by_cases e1 : i = hole
          · subst e1
            have n1 : i ≠ p := Ne.symm pne
            have n3 : i / 2 ≠ i := by omega
            simp only [n1, n3, ine, if_false, if_true, pne] at gh ⊢
            exact gh i1 il
          · simp only [e1, if_false] at oi ⊢
            by_cases e2 : i / 2 = hole
            · simp only [e2, if_true]
              rw [if_neg (by omega : ¬ hole = p)]
              by_cases e3 : i = p
              · simp only [e3, if_true]
                rw [not_lt]
                exact le_of_lt c
              · simp only [e3, if_false]
                exact pm e2
            · have := oi e2
              have n : i ≠ p := by intro e; subst e; exact e2 pd
              simp only [n, ine, e2, if_false] at this ⊢
              exact this
        · intro i i1 i2 ie pp pl
          have oi := ho i i1 i2 (by omega) (by omega)
          simp only [kat_place] at oi ⊢
          have n1 : i ≠ p := by omega
          have n2 : i ≠ hole := by omega
          simp only [ie, n1, n2, pd, pne, Ne.symm pne, if_false, if_true] at oi ⊢
          exact oi
      next c =>
        refine ⟨hb, Same.refl _, ?_⟩
        intro lh dp i i1 i2 il
        by_cases e : i / 2 = hole
        · have n : i ≠ hole := by omega
          simp only [kat_place, n, e, if_true, if_false]
          have := pmin i i1 i2 e
          rw [not_lt] at this c ⊢
          exact le_trans c this
        · exact dp.oth i i1 i2 il e
    next hc =>
      refine ⟨hb, Same.refl _, ?_⟩
      intro lh dp i i1 i2 il
      apply dp.oth i i1 i2 il
      have : i ≤ h.size := i2
      omega

theorem percUp_spec (h : Heap K) (hole : Nat) (tmp : HElem K)
    (h1 : 1 ≤ hole) (h2 : hole ≤ h.size) (hb : BP (h.place hole tmp)) :
    BP (percUp h hole tmp) ∧ Same (percUp h hole tmp) (h.place hole tmp) ∧
    (UpPre (h.place hole tmp) hole → Ordered (percUp h hole tmp)) := by
  have : h.size ≠ 0 := by omega
  simp only [percUp, this, ne_eq, not_false_eq_true, if_true]
  exact percUpLoop_spec _ h hole tmp (Nat.le_refl _) h1 h2 hb

theorem percDown_spec (l : Nat) (h : Heap K) (hole : Nat) (tmp : HElem K)
    (h1 : 1 ≤ hole) (h2 : hole ≤ h.size) (hb : BP (h.place hole tmp)) :
    BP (percDown h hole tmp) ∧ Same (percDown h hole tmp) (h.place hole tmp) ∧
    (l ≤ hole → DownPre l (h.place hole tmp) hole → OrdFrom l (percDown h hole tmp)) := by
  have : h.size ≠ 0 := by omega
  simp only [percDown, this, ne_eq, not_false_eq_true, if_true]
  exact percDownLoop_spec l _ h hole tmp (by omega) h1 h2 hb

/-- order except on edges touching the hole; children of the hole are above its parent -/
structure MidPre (h : Heap K) (hole : Nat) : Prop where
  oth : ∀ i, 2 ≤ i → i ≤ h.size → i ≠ hole → i / 2 ≠ hole → ¬ h.kat i < h.kat (i / 2)
  gp : ∀ i, 2 ≤ i → i ≤ h.size → i / 2 = hole → 2 ≤ hole → ¬ h.kat i < h.kat (hole / 2)

theorem percUpOrDown_spec (h : Heap K) (hole : Nat) (tmp : HElem K)
    (h1 : 1 ≤ hole) (h2 : hole ≤ h.size) (hb : BP (h.place hole tmp)) :
    BP (percUpOrDown h hole tmp) ∧ Same (percUpOrDown h hole tmp) (h.place hole tmp) ∧
    (MidPre (h.place hole tmp) hole → Ordered (percUpOrDown h hole tmp)) := by
  have : h.size ≠ 0 := by omega
  simp only [percUpOrDown, this, ne_eq, not_false_eq_true, if_true]
  split
  next c =>
    obtain ⟨a, b, d⟩ := percUp_spec h hole tmp h1 h2 hb
    refine ⟨a, b, fun mp => d ⟨?_, mp.gp⟩⟩
    intro i i1 i2 ine
    by_cases e : i / 2 = hole
    · have g := mp.gp i i1 i2 e (by omega)
      have n : hole / 2 ≠ hole := by omega
      simp only [kat_place, ine, e, n, if_true, if_false] at g ⊢
      rw [not_lt] at g ⊢
      exact le_trans (le_of_lt c.2) g
    · exact mp.oth i i1 i2 ine e
  next c =>
    obtain ⟨a, b, d⟩ := percDown_spec 1 h hole tmp h1 h2 hb
    refine ⟨a, b, fun mp => d h1 ⟨?_, fun i i1 i2 e p _ => mp.gp i i1 i2 e p⟩⟩
    intro i i1 i2 _ ine
    by_cases e : i = hole
    · subst e
      simp only [kat_place, ine, if_true, if_false]
      intro lt
      exact c ⟨by omega, lt⟩
    · exact mp.oth i i1 i2 e ine

/-- Percolation never reads `heapindex`: two heaps that differ only in the index of `x` stay so. -/
structure EqExc (x : Nat) (a b : Heap K) : Prop where
  arr : a.arr = b.arr
  size : a.size = b.size
  alloc : a.alloc = b.alloc
  idx : ∀ s, s ≠ x → a.idx s = b.idx s

theorem EqExc.place {x : Nat} {a b : Heap K} (e : EqExc x a b) (p : Nat) (t : HElem K) :
    EqExc x (a.place p t) (b.place p t) := by
  refine ⟨by simp [Heap.place, e.arr], e.size, e.alloc, ?_⟩
  intro s hs
  simp only [Heap.place, upd]
  split
  · rfl
  · exact e.idx s hs

theorem EqExc.percUpLoop {x : Nat} (fuel : Nat) : ∀ {a b : Heap K} (_ : EqExc x a b) (p : Nat)
    (t : HElem K), EqExc x (a.percUpLoop fuel p t) (b.percUpLoop fuel p t) := by
  induction fuel with
  | zero => intro a b e p t; exact e.place p t
  | succ fuel ih =>
    intro a b e p t
    rw [Heap.percUpLoop, Heap.percUpLoop, e.arr]
    split
    · exact ih (e.place p _) _ _
    · exact e.place p t

theorem EqExc.percDownLoop {x : Nat} (fuel : Nat) : ∀ {a b : Heap K} (_ : EqExc x a b) (p : Nat)
    (t : HElem K), EqExc x (a.percDownLoop fuel p t) (b.percDownLoop fuel p t) := by
  induction fuel with
  | zero => intro a b e p t; exact e.place p t
  | succ fuel ih =>
    intro a b e p t
    have pc : a.pickChild p = b.pickChild p := by simp [pickChild, e.arr, e.size]
    rw [Heap.percDownLoop, Heap.percDownLoop, e.arr, e.size, pc]
    simp only
    split
    · split
      · exact ih (e.place p _) _ _
      · exact e.place p t
    · exact e.place p t

theorem EqExc.percUpOrDown {x : Nat} {a b : Heap K} (e : EqExc x a b) (p : Nat) (t : HElem K) :
    EqExc x (a.percUpOrDown p t) (b.percUpOrDown p t) := by
  unfold Heap.percUpOrDown Heap.percUp Heap.percDown
  rw [e.arr, e.size]
  split
  · split
    · exact e.percUpLoop _ p t
    · exact e.percDownLoop _ p t
  · exact e

end Heap
end Sbpl
