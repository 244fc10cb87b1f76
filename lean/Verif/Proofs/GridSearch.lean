import Mathlib.Tactic.Linarith
import Mathlib.Tactic.Ring
import Mathlib.Data.List.Nodup
import Verif.Model.GridSearch
import Verif.Spec.Graph
import Verif.Proofs.HeapOps
import Verif.Proofs.HeapRefine
import Verif.Proofs.ListAux
/-! The label-setting search of `SBPL2DGridSearch` on an arbitrary graph. -/

namespace Sbpl.Grid2D
open GraphSpec Heap

abbrev INF : Nat := INFINITECOST

/-- the part of the key besides g -/
def hk (s : Grid2D) (i : Nat) : Nat := if s.last = .optPath then s.heur (s.px i) (s.py i) else 0

theorem key_eq (s : Grid2D) (i : Nat) : s.key i = s.g i + s.hk i := by
  unfold key hk; split <;> simp

/-- fields that an expansion leaves alone -/
structure Frame (a b : Grid2D) : Prop where
  W : b.W = a.W
  H : b.H = a.H
  ds : b.ds = a.ds
  mm : b.mm = a.mm
  den : b.den = a.den
  iter : b.iter = a.iter
  goal : b.goal = a.goal
  last : b.last = a.last

theorem Frame.refl (a : Grid2D) : Frame a a := ⟨rfl, rfl, rfl, rfl, rfl, rfl, rfl, rfl⟩
theorem Frame.trans {a b c : Grid2D} (x : Frame a b) (y : Frame b c) : Frame a c :=
  ⟨y.W.trans x.W, y.H.trans x.H, y.ds.trans x.ds, y.mm.trans x.mm, y.den.trans x.den, y.iter.trans x.iter,
    y.goal.trans x.goal, y.last.trans x.last⟩

theorem Frame.hk {a b : Grid2D} (f : Frame a b) : b.hk = a.hk := by
  funext i
  simp only [Grid2D.hk, heur, px, py, f.W, f.mm, f.den, f.goal, f.last]

/-- the heuristic part of the key is consistent -/
def Cons (s : Grid2D) (E : Nat → List (Nat × Nat)) : Prop := ∀ j t c, (t, c) ∈ E j → s.hk j ≤ c + s.hk t

theorem Frame.cons {a b : Grid2D} (f : Frame a b) {E : Nat → List (Nat × Nat)} (h : Cons b E) : Cons a E := by
  unfold Cons at *; rw [f.hk] at h; exact h

/-- invariant of a search on the graph `E`; the edges `es` of `x` are still to be handled -/
structure Ok (s : Grid2D) (E : Nat → List (Nat × Nat)) (i0 gl N : Nat) (cl : Nat → Bool) (x : Nat) (es : List (Nat × Nat)) :
    Prop where
  heap : BP s.opn ∧ Ordered s.opn
  le : ∀ j, s.it j ≤ s.iter
  key : ∀ j k, keyOf s.opn j = some k → s.it j = s.iter ∧ cl j = false ∧ k = ((s.g j + s.hk j : Nat) : Int) ∧ j < N
  clAcc : ∀ j, cl j = true → s.it j = s.iter
  gle : ∀ j, s.it j = s.iter → s.g j ≤ INF
  walk : ∀ j, s.it j = s.iter → s.g j = INF ∨ Walk E i0 j (s.g j)
  startAcc : s.it i0 = s.iter
  start : s.g i0 = 0
  goalAcc : s.it gl = s.iter
  openIn : ∀ j, s.it j = s.iter → cl j = false → s.g j < INF → keyOf s.opn j ≠ none
  opt : Cons s E → ∀ j, cl j = true → ∀ n, Walk E i0 j n → s.g j ≤ n
  rel : Cons s E → ∀ j, cl j = true → ∀ t c, (t, c) ∈ E j → (j = x ∧ (t, c) ∈ es) ∨ (s.it t = s.iter ∧ s.g t ≤ s.g j + c)

theorem size_le {h : Heap Int} (hb : BP h) {N : Nat} (hN : ∀ j k, keyOf h j = some k → j < N) : h.size ≤ N := by
  have nd : ((List.range h.size).map (fun i => (h.arr (i + 1)).st)).Nodup := by
    refine List.Nodup.map_on ?_ List.nodup_range
    intro a ha b hb' e
    rw [List.mem_range] at ha hb'
    have e1 := hb.fwd (a + 1) (by omega) (by omega)
    have e2 := hb.fwd (b + 1) (by omega) (by omega)
    rw [e] at e1; omega
  have := nodup_len_le (R := List.range N) nd (by
    intro j hj
    obtain ⟨i, hi, rfl⟩ := List.mem_map.mp hj
    rw [List.mem_range] at hi ⊢
    exact hN _ _ (keyOf_slot hb (by omega) (by omega)))
  simpa using this

theorem Ok.withRel {s : Grid2D} {E : Nat → List (Nat × Nat)} {i0 gl N x y : Nat} {cl : Nat → Bool} {es es' : List (Nat × Nat)}
    (o : Ok s E i0 gl N cl x es)
    (h : Cons s E → ∀ j, cl j = true → ∀ t c, (t, c) ∈ E j → (j = y ∧ (t, c) ∈ es') ∨ (s.it t = s.iter ∧ s.g t ≤ s.g j + c)) :
    Ok s E i0 gl N cl y es' :=
  ⟨o.heap, o.le, o.key, o.clAcc, o.gle, o.walk, o.startAcc, o.start, o.goalAcc, o.openIn, o.opt, h⟩

/-- every walk to a state that is not closed passes the OPEN list, or is too expensive -/
theorem walk_front {s : Grid2D} {E : Nat → List (Nat × Nat)} {i0 gl N x : Nat} {cl : Nat → Bool}
    (o : Ok s E i0 gl N cl x []) (hc : Cons s E) {t n : Nat} (w : Walk E i0 t n) :
    cl t = true ∨ INF ≤ n ∨ ∃ y k, keyOf s.opn y = some k ∧ k ≤ ((n + s.hk t : Nat) : Int) := by
  have fin : ∀ t n, s.it t = s.iter → s.g t ≤ n →
      cl t = true ∨ INF ≤ n ∨ ∃ y k, keyOf s.opn y = some k ∧ k ≤ ((n + s.hk t : Nat) : Int) := by
    intro t n ha hg
    by_cases q : cl t = true
    · exact .inl q
    by_cases q2 : s.g t < INF
    · have := o.openIn t ha (by simpa using q) q2
      cases e : keyOf s.opn t with
      | none => exact absurd e this
      | some k =>
        right; right
        refine ⟨t, k, e, ?_⟩
        rw [(o.key t k e).2.2.1]
        push_cast; omega
    · right; left; omega
  induction w with
  | nil => exact fin i0 0 o.startAcc (by rw [o.start])
  | snoc w1 hm ih =>
    rename_i b t n c
    rcases ih with q | q | ⟨y, k, e, hk⟩
    · rcases o.rel hc b q t c hm with ⟨_, h⟩ | ⟨h1, h2⟩
      · cases h
      · exact fin t _ h1 (by have := o.opt hc b q n w1; omega)
    · right; left; omega
    · right; right
      refine ⟨y, k, e, ?_⟩
      have := hc b t c hm
      push_cast at hk ⊢; omega

/-- result of the exception monad: no exception -/
def Good {α : Type} (r : Except GErr α) (P : α → Prop) : Prop :=
  match r with
  | .ok a => P a
  | .error _ => False

theorem relax_ok {s : Grid2D} {E : Nat → List (Nat × Nat)} {i0 gl N x : Nat} {cl : Nat → Bool} {j c : Nat} {es : List (Nat × Nat)}
    (o : Ok s E i0 gl N cl x ((j, c) :: es)) (hx : cl x = true) (hw : s.g x = INF ∨ Walk E i0 x (s.g x)) (hj : cl j = false)
    (hm : (j, c) ∈ E x) (hN : N + 1 < HEAPSIZE) (hjN : j < N) :
    Good (s.relax x j c) fun s' => Ok s' E i0 gl N cl x es ∧ Frame s s' ∧ s'.g x = s.g x := by
  have ne : x ≠ j := by rintro rfl; rw [hx] at hj; cases hj
  unfold relax
  split
  next h =>
    -- the new value
    have gnew : s.it j = s.iter → min INFINITECOST (c + s.g x) < s.g j := by
      intro ha
      rcases h with h | h
      · exact absurd ha h
      · have := Nat.min_le_right INFINITECOST (c + s.g x); omega
    have j0 : j = i0 → False := by
      rintro rfl
      have := gnew o.startAcc
      rw [o.start] at this; omega
    generalize hs1 : ({ s with it := upd s.it j s.iter, g := upd s.g j (min INFINITECOST (c + s.g x)) } : Grid2D) = s1
    have f1 : Frame s s1 := by subst hs1; exact ⟨rfl, rfl, rfl, rfl, rfl, rfl, rfl, rfl⟩
    have op1 : s1.opn = s.opn := by subst hs1; rfl
    have g1 : s1.g = upd s.g j (min INFINITECOST (c + s.g x)) := by subst hs1; rfl
    have it1 : s1.it = upd s.it j s.iter := by subst hs1; rfl
    have hres : ∃ h', (if s1.opn.idx j = 0 then s1.opn.insert j (s1.key j) else s1.opn.update j (s1.key j)) = .ok h' ∧
        BP h' ∧ Ordered h' ∧ keyOf h' = upd (keyOf s.opn) j (some ((s1.key j : Nat) : Int)) := by
      rw [op1]
      split
      next q =>
        have kn : keyOf s.opn j = none := by simp [keyOf, q]
        have hsz : s.opn.size ≠ HEAPSIZE - 1 := by
          have := size_le o.heap.1 (N := N) (fun a k h => (o.key a k h).2.2.2)
          omega
        obtain ⟨h', e⟩ := (insert_ok_iff s.opn j ((s1.key j : Nat) : Int)).mpr ⟨hsz, kn⟩
        obtain ⟨b1, b2, b3, b4, _⟩ := insert_spec o.heap.1 e
        exact ⟨h', e, b1, b4 o.heap.2, b2⟩
      next q =>
        have kn : keyOf s.opn j ≠ none := by simp [keyOf, q]
        obtain ⟨h', e⟩ := (update_ok_iff s.opn j ((s1.key j : Nat) : Int)).mpr kn
        obtain ⟨b1, b2, b3, b4, _⟩ := update_spec o.heap.1 o.heap.2 e
        exact ⟨h', e, b1, b4, b2⟩
    obtain ⟨h', e, hb, ho, hk'⟩ := hres
    dsimp only
    rw [e]
    have acc : ∀ t, s1.it t = s1.iter ↔ t = j ∨ s.it t = s.iter := by
      intro t
      rw [it1, f1.iter]
      by_cases q : t = j
      · simp [q]
      · simp [upd_other _ _ q, q]
    have go : ∀ t, t ≠ j → s1.g t = s.g t := fun t q => by rw [g1, upd_other _ _ q]
    have gj : s1.g j = min INFINITECOST (c + s.g x) := by rw [g1, upd_same]
    have gle1 : ∀ t, s.it t = s.iter → s1.g t ≤ s.g t := by
      intro t ht
      by_cases q : t = j
      · rw [q] at ht ⊢; rw [gj]; exact Nat.le_of_lt (gnew ht)
      · rw [go t q]
    refine ⟨?_, ⟨f1.W, f1.H, f1.ds, f1.mm, f1.den, f1.iter, f1.goal, f1.last⟩, go x ne⟩
    have fh : ∀ t, ({ s1 with opn := h' } : Grid2D).hk t = s.hk t := fun t => congrFun f1.hk t
    constructor
    · exact ⟨hb, ho⟩
    · intro t
      show s1.it t ≤ s1.iter
      rw [it1, f1.iter]
      by_cases q : t = j
      · simp [q]
      · rw [upd_other _ _ q]; exact o.le t
    · intro t k hkt
      change keyOf h' t = some k at hkt
      rw [hk'] at hkt
      rw [fh]
      show s1.it t = s1.iter ∧ cl t = false ∧ k = ((s1.g t + s.hk t : Nat) : Int) ∧ t < N
      by_cases q : t = j
      · rw [q, upd_same] at hkt
        cases hkt
        rw [q]
        refine ⟨(acc j).mpr (.inl rfl), hj, ?_, hjN⟩
        rw [key_eq, f1.hk]
      · rw [upd_other _ _ q] at hkt
        obtain ⟨a1, a2, a3, a4⟩ := o.key t k hkt
        exact ⟨(acc t).mpr (.inr a1), a2, by rw [go t q]; exact a3, a4⟩
    · intro t ht; exact (acc t).mpr (.inr (o.clAcc t ht))
    · intro t ht
      show s1.g t ≤ INF
      by_cases q : t = j
      · rw [q, gj]; exact Nat.min_le_left _ _
      · rw [go t q]; exact o.gle t (((acc t).mp ht).resolve_left q)
    · intro t ht
      show s1.g t = INF ∨ Walk E i0 t (s1.g t)
      by_cases q : t = j
      · rw [q, gj]
        by_cases q2 : INF ≤ c + s.g x
        · left; exact Nat.min_eq_left q2
        · right
          rcases hw with hw | hw
          · rw [hw] at q2; omega
          · have q3 : c + s.g x ≤ INFINITECOST := Nat.le_of_lt (Nat.not_le.mp q2)
            have : min INFINITECOST (c + s.g x) = s.g x + c := by
              rw [Nat.min_eq_right q3]; omega
            rw [this]; exact hw.snoc hm
      · rw [go t q]; exact o.walk t (((acc t).mp ht).resolve_left q)
    · exact (acc i0).mpr (.inr o.startAcc)
    · show s1.g i0 = 0
      rw [go i0 (fun q => j0 q.symm)]; exact o.start
    · exact (acc gl).mpr (.inr o.goalAcc)
    · intro t ht hcl hg
      show keyOf h' t ≠ none
      rw [hk']
      by_cases q : t = j
      · rw [q, upd_same]; simp
      · rw [upd_other _ _ q]
        change s1.g t < INF at hg
        rw [go t q] at hg
        exact o.openIn t (((acc t).mp ht).resolve_left q) hcl hg
    · intro hc t ht n w
      show s1.g t ≤ n
      rw [go t (by rintro rfl; rw [ht] at hj; cases hj)]
      exact o.opt (f1.cons hc) t ht n w
    · intro hc a ha t c' hm'
      have aj : a ≠ j := by rintro rfl; rw [ha] at hj; cases hj
      show (a = x ∧ (t, c') ∈ es) ∨ (s1.it t = s1.iter ∧ s1.g t ≤ s1.g a + c')
      rw [go a aj]
      rcases o.rel (f1.cons hc) a ha t c' hm' with ⟨h1, h2⟩ | ⟨h1, h2⟩
      · rcases List.mem_cons.mp h2 with h3 | h3
        · right
          cases h3
          refine ⟨(acc j).mpr (.inl rfl), ?_⟩
          rw [gj, h1]
          have := Nat.min_le_right INFINITECOST (c + s.g x); omega
        · exact .inl ⟨h1, h3⟩
      · exact .inr ⟨(acc t).mpr (.inr h1), Nat.le_trans (gle1 t h1) h2⟩
  next h =>
    refine ⟨?_, Frame.refl s, rfl⟩
    have h' : s.it j = s.iter ∧ s.g j ≤ c + s.g x := by
      constructor
      · by_contra q; exact h (.inl q)
      · by_contra q; exact h (.inr (by omega))
    exact o.withRel (by
              intro hc a ha t c' hm'
              rcases o.rel hc a ha t c' hm' with ⟨h1, h2⟩ | h1
              · rcases List.mem_cons.mp h2 with h3 | h3
                · right; cases h3; rw [h1]; exact ⟨h'.1, by omega⟩
                · exact .inl ⟨h1, h3⟩
              · exact .inr h1)

/-- the edges of closed states need no handling -/
theorem skip_ok {s : Grid2D} {E : Nat → List (Nat × Nat)} {i0 gl N x : Nat} {cl : Nat → Bool} {j c : Nat} {es : List (Nat × Nat)}
    (o : Ok s E i0 gl N cl x ((j, c) :: es)) (hw : s.g x = INF ∨ Walk E i0 x (s.g x)) (hj : cl j = true)
    (hm : (j, c) ∈ E x) : Ok s E i0 gl N cl x es :=
  o.withRel (by
      intro hc a ha t c' hm'
      rcases o.rel hc a ha t c' hm' with ⟨h1, h2⟩ | h1
      · rcases List.mem_cons.mp h2 with h3 | h3
        · right
          cases h3
          refine ⟨o.clAcc j hj, ?_⟩
          rw [h1]
          rcases hw with hw | hw
          · have := o.gle j (o.clAcc j hj); omega
          · exact o.opt hc j hj _ (hw.snoc hm)
        · exact .inl ⟨h1, h3⟩
      · exact .inr h1)

/-- the direction loop on a list of edges -/
def relaxL (cl : Nat → Bool) (i : Nat) : List (Nat × Nat) → Grid2D → Except GErr Grid2D
  | [], s => .ok s
  | (j, c) :: es, s =>
    if cl j then relaxL cl i es s
    else
      match s.relax i j c with
      | .error e => .error e
      | .ok s1 => relaxL cl i es s1

theorem relaxL_ok {E : Nat → List (Nat × Nat)} {i0 gl N x : Nat} {cl : Nat → Bool} (hx : cl x = true) (hN : N + 1 < HEAPSIZE)
    (es : List (Nat × Nat)) : ∀ {s : Grid2D}, Ok s E i0 gl N cl x es → (s.g x = INF ∨ Walk E i0 x (s.g x)) →
    (∀ e ∈ es, e ∈ E x ∧ e.1 < N) →
    Good (relaxL cl x es s) fun s' => Ok s' E i0 gl N cl x [] ∧ Frame s s' := by
  induction es with
  | nil => intro s o _ _; exact ⟨o, Frame.refl s⟩
  | cons e es ih =>
    intro s o hw hm
    obtain ⟨j, c⟩ := e
    unfold relaxL
    have hm' : ∀ e ∈ es, e ∈ E x ∧ e.1 < N := fun e he => hm e (by simp [he])
    obtain ⟨m1, m2⟩ := hm (j, c) (by simp)
    split
    next q => exact ih (skip_ok o hw q m1) hw hm'
    next q =>
      have := relax_ok o hx hw (by simpa using q) m1 hN m2
      cases e : s.relax x j c with
      | error er => rw [e] at this; exact this
      | ok s1 =>
        rw [e] at this
        obtain ⟨o1, f1, g1⟩ := this
        have h2 := ih o1 (by rw [g1]; exact hw) hm'
        simp only
        cases e2 : relaxL cl x es s1 with
        | error er => rw [e2] at h2; exact h2
        | ok s2 => rw [e2] at h2; exact ⟨h2.1, f1.trans h2.2⟩

/-- the pending edges are those of `x` only: any other choice of `x` is as good when none are pending -/
theorem Ok.any {s : Grid2D} {E : Nat → List (Nat × Nat)} {i0 gl N x : Nat} {cl : Nat → Bool} (o : Ok s E i0 gl N cl x [])
    (y : Nat) : Ok s E i0 gl N cl y [] :=
  o.withRel (by
      intro hc a ha t c hm
      rcases o.rel hc a ha t c hm with ⟨_, h⟩ | h
      · cases h
      · exact .inr h)

/-- taking the minimum off the list and closing it -/
theorem pop_ok {s : Grid2D} {E : Nat → List (Nat × Nat)} {i0 gl N x : Nat} {cl : Nat → Bool} (o : Ok s E i0 gl N cl x [])
    {i : Nat} {h : Heap Int} (e : s.opn.deleteMin = .ok (i, h)) :
    Ok { s with opn := h } E i0 gl N (upd cl i true) i (E i) ∧ cl i = false ∧ i < N ∧ (s.g i = INF ∨ Walk E i0 i (s.g i)) := by
  obtain ⟨b1, b2, b3, b4, _, k, k1, k2, k3⟩ := deleteMin_spec o.heap.1 o.heap.2 e
  obtain ⟨i1, i2, i3, i4⟩ := o.key i k k1
  refine ⟨?_, i2, i4, o.walk i i1⟩
  have clne : ∀ t, upd cl i true t = true → t = i ∨ cl t = true := by
    intro t ht
    by_cases q : t = i
    · exact .inl q
    · rw [upd_other _ _ q] at ht; exact .inr ht
  constructor
  · exact ⟨b1, b4⟩
  · exact o.le
  · intro t k' ht
    change keyOf h t = some k' at ht
    rw [b2] at ht
    by_cases q : t = i
    · rw [q, upd_same] at ht; cases ht
    · rw [upd_other _ _ q] at ht
      obtain ⟨a1, a2, a3, a4⟩ := o.key t k' ht
      exact ⟨a1, by rw [upd_other _ _ q]; exact a2, a3, a4⟩
  · intro t ht
    rcases clne t ht with q | q
    · rw [q]; exact i1
    · exact o.clAcc t q
  · exact o.gle
  · exact o.walk
  · exact o.startAcc
  · exact o.start
  · exact o.goalAcc
  · intro t ht hcl hg
    show keyOf h t ≠ none
    have q : t ≠ i := by rintro rfl; simp at hcl
    rw [upd_other _ _ q] at hcl
    rw [b2, upd_other _ _ q]
    exact o.openIn t ht hcl hg
  · intro hc t ht n w
    show s.g t ≤ n
    rcases clne t ht with q | q
    · rw [q] at w ⊢
      rcases walk_front o hc w with r | r | ⟨y, k', r1, r2⟩
      · rw [i2] at r; cases r
      · have := o.gle i i1; omega
      · have := k3 y k' r1
        have h3 : k ≤ ((n + s.hk i : Nat) : Int) := le_trans this r2
        rw [i3] at h3
        push_cast at h3; omega
    · exact o.opt hc t q n w
  · intro hc a ha t c hm
    rcases clne a ha with q | q
    · left; exact ⟨q, by rw [q] at hm; exact hm⟩
    · right
      rcases o.rel hc a q t c hm with ⟨_, h⟩ | h
      · cases h
      · exact h

end Sbpl.Grid2D
