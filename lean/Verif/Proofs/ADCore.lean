import Mathlib.Tactic.Linarith
import Mathlib.Tactic.Ring
import Verif.Model.AD
import Verif.Spec.Graph
import Verif.Proofs.ARALoop
/-! AD*: the value invariants, stated on the effective values only (no heap, no lists). -/

namespace Sbpl.AD
open GraphSpec ARA

/-- effective values: touched states, g, v, back pointer -/
structure Vals where
  a : Nat → Prop
  G : Nat → Nat
  V : Nat → Nat
  P : Nat → Option Nat

/-- the search graph: expansion edges, reverse edges, start, states whose edges are as listed, states at which both
directions agree, heuristic, a lower bound of the edge costs -/
structure Gr where
  B : Nat → List (Nat × Nat)
  R : Nat → List (Nat × Nat)
  s0 : Nat
  A : Nat → Prop
  Q : Nat → Prop
  H : Nat → Nat
  m : Nat

structure GOk (gr : Gr) : Prop where
  pos : ∀ u t c, (t, c) ∈ gr.B u → 1 ≤ c
  lo : ∀ u t c, (t, c) ∈ gr.B u → gr.m ≤ c
  revB : ∀ t u c, gr.Q t → gr.A u → (u, c) ∈ gr.R t → (t, c) ∈ gr.B u
  iso : ∀ s, s ≠ gr.s0 → ¬ gr.Q s → gr.B s = []
  cons : ∀ u t c, (t, c) ∈ gr.B u → gr.H u ≤ gr.H t + c

/-- Value invariant.  `x`, `es`: state being expanded overconsistently and its edges not processed yet;
`y`, `v0`, `ys`: state being expanded underconsistently, its former value, its edges not processed yet. -/
structure VInv (gr : Gr) (F : Prop) (w : Vals) (x : Nat) (es : List (Nat × Nat)) (y v0 : Nat)
    (ys : List (Nat × Nat)) : Prop where
  startA : w.a gr.s0
  startG : w.G gr.s0 = 0
  startP : w.P gr.s0 = none
  gInf : ∀ s, w.G s ≤ INF
  vInf : ∀ s, w.V s ≤ INF
  actV : ∀ s, w.V s < INF → gr.A s
  accN : F → ∀ u t c, w.V u < INF → (t, c) ∈ gr.B u → w.a t ∨ (u = x ∧ (t, c) ∈ es)
  edge : F → ∀ u t c, (t, c) ∈ gr.B u → (u, c) ∈ gr.R t → (u = x ∧ (t, c) ∈ es) ∨ w.G t ≤ w.V u + c
  ptrOk : ∀ s, gr.Q s → w.G s < INF → s ≠ gr.s0 → ∃ p c, w.P s = some p ∧ (s, c) ∈ gr.B p ∧
    (w.V p + c ≤ w.G s ∨ (p = y ∧ v0 + c ≤ w.G s ∧ ∃ c', (s, c') ∈ ys))

/-- no expansion in progress -/
abbrev Idle (gr : Gr) (F : Prop) (w : Vals) : Prop := VInv gr F w 0 [] 0 0 []

theorem VInv.idleO {gr : Gr} {F : Prop} {w : Vals} {x y v0 : Nat} (i : VInv gr F w x [] y v0 []) : Idle gr F w := by
  refine ⟨i.startA, i.startG, i.startP, i.gInf, i.vInf, i.actV, ?_, ?_, ?_⟩
  · intro f u t c h1 h2
    rcases i.accN f u t c h1 h2 with h | ⟨_, h⟩
    · exact .inl h
    · cases h
  · intro f u t c h1 h2
    rcases i.edge f u t c h1 h2 with ⟨_, h⟩ | h
    · cases h
    · exact .inr h
  · intro s q h n
    obtain ⟨p, c, h1, h2, h3⟩ := i.ptrOk s q h n
    refine ⟨p, c, h1, h2, .inl ?_⟩
    rcases h3 with h3 | ⟨_, _, c', h3⟩
    · exact h3
    · cases h3

theorem VInv.grow {gr : Gr} {F : Prop} {w : Vals} {x y v0 : Nat} {es ys : List (Nat × Nat)}
    (i : VInv gr F w x es y v0 ys) {a' : Nat → Prop} (h : ∀ s, w.a s → a' s) :
    VInv gr F { w with a := a' } x es y v0 ys := by
  refine ⟨h _ i.startA, i.startG, i.startP, i.gInf, i.vInf, i.actV, ?_, i.edge, i.ptrOk⟩
  intro f u t c h1 h2
  exact (i.accN f u t c h1 h2).imp (h t) id

/-- start of an overconsistent expansion -/
theorem over_start {gr : Gr} {F : Prop} {w : Vals} (i : Idle gr F w) {s : Nat} (act : gr.A s) (lt : w.G s < w.V s) :
    VInv gr F { w with V := upd w.V s (w.G s) } s (gr.B s) 0 0 [] := by
  have vle : ∀ u, upd w.V s (w.G s) u ≤ w.V u := by
    intro u; by_cases q : u = s
    · subst q; rw [upd_same]; omega
    · rw [upd_other _ _ q]
  refine ⟨i.startA, i.startG, i.startP, i.gInf, fun u => Nat.le_trans (vle u) (i.vInf u), ?_, ?_, ?_, ?_⟩
  · intro u h
    by_cases q : u = s
    · subst q; exact act
    · simp only [upd_other _ _ q] at h; exact i.actV u h
  · intro f u t c h1 h2
    by_cases q : u = s
    · subst q; exact .inr ⟨rfl, h2⟩
    · simp only [upd_other _ _ q] at h1
      rcases i.accN f u t c h1 h2 with h | ⟨_, h⟩
      · exact .inl h
      · cases h
  · intro f u t c h1 h2
    by_cases q : u = s
    · subst q; exact .inl ⟨rfl, h1⟩
    · simp only [upd_other _ _ q]
      rcases i.edge f u t c h1 h2 with ⟨_, h⟩ | h
      · cases h
      · exact .inr h
  · intro t hq h n
    obtain ⟨p, c, h1, h2, h3⟩ := i.ptrOk t hq h n
    refine ⟨p, c, h1, h2, .inl ?_⟩
    rcases h3 with h3 | ⟨_, _, c', h3⟩
    · have := vle p; simp only at h3 ⊢; omega
    · cases h3

/-- one edge of an overconsistent expansion that improves its target -/
theorem over_relax {gr : Gr} {F : Prop} {w : Vals} {s t c : Nat} {es : List (Nat × Nat)}
    (i : VInv gr F w s ((t, c) :: es) 0 0 []) (hb : (t, c) ∈ gr.B s) (ha : w.a t) (lt : w.V s + c < w.G t) :
    VInv gr F { w with G := upd w.G t (w.V s + c), P := upd w.P t (some s) } s es 0 0 [] := by
  have n0 : t ≠ gr.s0 := by rintro rfl; rw [i.startG] at lt; omega
  have gl := i.gInf t
  have gle : ∀ u, upd w.G t (w.V s + c) u ≤ w.G u := by
    intro u; by_cases q : u = t
    · subst q; rw [upd_same]; omega
    · rw [upd_other _ _ q]
  refine ⟨i.startA, ?_, ?_, fun u => Nat.le_trans (gle u) (i.gInf u), i.vInf, i.actV, ?_, ?_, ?_⟩
  · simp only [upd_other _ _ n0.symm]; exact i.startG
  · simp only [upd_other _ _ n0.symm]; exact i.startP
  · intro f u t' c' h1 h2
    rcases i.accN f u t' c' h1 h2 with h | ⟨h, h'⟩
    · exact .inl h
    · rw [List.mem_cons] at h'
      rcases h' with h' | h'
      · cases h'; exact .inl ha
      · exact .inr ⟨h, h'⟩
  · intro f u t' c' h1 h2
    rcases i.edge f u t' c' h1 h2 with ⟨h, h'⟩ | h
    · rw [List.mem_cons] at h'
      rcases h' with h' | h'
      · cases h'; right; subst h; simp only [upd_same]; omega
      · exact .inl ⟨h, h'⟩
    · right; have := gle t'; simp only at h ⊢; omega
  · intro t' hq h n
    by_cases q : t' = t
    · subst q
      exact ⟨s, c, by simp, hb, .inl (by simp)⟩
    · simp only [upd_other _ _ q] at h ⊢
      obtain ⟨p, c', h1, h2, h3⟩ := i.ptrOk t' hq h n
      refine ⟨p, c', h1, h2, .inl ?_⟩
      rcases h3 with h3 | ⟨_, _, c', h3⟩
      · exact h3
      · cases h3

/-- one edge of an overconsistent expansion that does not improve its target -/
theorem over_skip {gr : Gr} {F : Prop} {w : Vals} {s t c : Nat} {es : List (Nat × Nat)}
    (i : VInv gr F w s ((t, c) :: es) 0 0 []) (ha : w.a t) (le : w.G t ≤ w.V s + c) :
    VInv gr F w s es 0 0 [] := by
  refine ⟨i.startA, i.startG, i.startP, i.gInf, i.vInf, i.actV, ?_, ?_, ?_⟩
  · intro f u t' c' h1 h2
    rcases i.accN f u t' c' h1 h2 with h | ⟨h, h'⟩
    · exact .inl h
    · rw [List.mem_cons] at h'
      rcases h' with h' | h'
      · cases h'; exact .inl ha
      · exact .inr ⟨h, h'⟩
  · intro f u t' c' h1 h2
    rcases i.edge f u t' c' h1 h2 with ⟨h, h'⟩ | h
    · rw [List.mem_cons] at h'
      rcases h' with h' | h'
      · cases h'; right; subst h; exact le
      · exact .inl ⟨h, h'⟩
    · exact .inr h
  · exact i.ptrOk

/-- start of an underconsistent expansion -/
theorem under_start {gr : Gr} {F : Prop} {w : Vals} (i : Idle gr F w) {s : Nat} :
    VInv gr F { w with V := upd w.V s INF } 0 [] s (w.V s) (gr.B s) := by
  have vle : ∀ u, w.V u ≤ upd w.V s INF u := by
    intro u; by_cases q : u = s
    · subst q; rw [upd_same]; exact i.vInf u
    · rw [upd_other _ _ q]
  have lt : ∀ u, upd w.V s INF u < INF → w.V u < INF := fun u h => Nat.lt_of_le_of_lt (vle u) h
  refine ⟨i.startA, i.startG, i.startP, i.gInf, ?_, fun u h => i.actV u (lt u h), ?_, ?_, ?_⟩
  · intro u; by_cases q : u = s
    · subst q; simp
    · simp only [upd_other _ _ q]; exact i.vInf u
  · intro f u t c h1 h2; exact i.accN f u t c (lt u h1) h2
  · intro f u t c h1 h2
    rcases i.edge f u t c h1 h2 with h | h
    · exact .inl h
    · right; have := vle u; simp only at h ⊢; omega
  · intro t hq h n
    obtain ⟨p, c, h1, h2, h3⟩ := i.ptrOk t hq h n
    rcases h3 with h3 | ⟨_, _, c', h3⟩
    · by_cases q : p = s
      · subst q; exact ⟨p, c, h1, h2, .inr ⟨rfl, h3, c, h2⟩⟩
      · exact ⟨p, c, h1, h2, .inl (by simp only [upd_other _ _ q]; exact h3)⟩
    · cases h3

/-- what `Recomputegval` computes -/
structure Best (V : Nat → Nat) (es : List (Nat × Nat)) (p0 : Option Nat) (r : Nat × Option Nat) : Prop where
  le : r.1 ≤ INF
  min : ∀ u c, (u, c) ∈ es → r.1 ≤ V u + c
  att : r.1 < INF → ∃ u c, r.2 = some u ∧ (u, c) ∈ es ∧ V u + c = r.1
  keep : r.1 = INF → r.2 = p0

theorem VInv.best_lt {gr : Gr} {F : Prop} {w : Vals} {x y v0 : Nat} {es ys : List (Nat × Nat)}
    (i : VInv gr F w x es y v0 ys) (g : GOk gr) {t : Nat} {r : Nat × Option Nat} (b : Best w.V (gr.R t) (w.P t) r)
    (hq : gr.Q t) (lt : r.1 < INF) : ∃ p c, r.2 = some p ∧ (t, c) ∈ gr.B p ∧ w.V p + c ≤ r.1 := by
  obtain ⟨u, c, h1, h2, h3⟩ := b.att lt
  exact ⟨u, c, h1, g.revB t u c hq (i.actV u (by omega)) h2, Nat.le_of_eq h3⟩

/-- one edge of an underconsistent expansion whose target is recomputed -/
theorem under_recompute {gr : Gr} {F : Prop} {w : Vals} {s v0 t c : Nat} {ys : List (Nat × Nat)}
    (i : VInv gr F w 0 [] s v0 ((t, c) :: ys)) (g : GOk gr) (hp : w.P t = some s)
    {r : Nat × Option Nat} (b : Best w.V (gr.R t) (w.P t) r) :
    VInv gr F { w with G := upd w.G t r.1, P := upd w.P t r.2 } 0 [] s v0 ys := by
  have n0 : t ≠ gr.s0 := by rintro rfl; rw [i.startP] at hp; cases hp
  refine ⟨i.startA, ?_, ?_, ?_, i.vInf, i.actV, i.accN, ?_, ?_⟩
  · simp only [upd_other _ _ n0.symm]; exact i.startG
  · simp only [upd_other _ _ n0.symm]; exact i.startP
  · intro u; by_cases q : u = t
    · subst q; simp only [upd_same]; exact b.le
    · simp only [upd_other _ _ q]; exact i.gInf u
  · intro f u t' c' h1 h2
    by_cases q : t' = t
    · subst q; right; simp only [upd_same]; exact b.min u c' h2
    · simp only [upd_other _ _ q]; exact i.edge f u t' c' h1 h2
  · intro t' hq h n
    by_cases q : t' = t
    · subst q
      simp only [upd_same] at h ⊢
      obtain ⟨p, c', h1, h2, h3⟩ := i.best_lt g b hq h
      exact ⟨p, c', h1, h2, .inl h3⟩
    · simp only [upd_other _ _ q] at h ⊢
      obtain ⟨p, c', h1, h2, h3⟩ := i.ptrOk t' hq h n
      refine ⟨p, c', h1, h2, ?_⟩
      rcases h3 with h3 | ⟨h3, h4, c'', h5⟩
      · exact .inl h3
      · rw [List.mem_cons] at h5
        rcases h5 with h5 | h5
        · cases h5; exact absurd rfl q
        · exact .inr ⟨h3, h4, c'', h5⟩

/-- one edge of an underconsistent expansion whose target has another back pointer -/
theorem under_skip {gr : Gr} {F : Prop} {w : Vals} {s v0 t c : Nat} {ys : List (Nat × Nat)}
    (i : VInv gr F w 0 [] s v0 ((t, c) :: ys)) (hp : w.P t ≠ some s) : VInv gr F w 0 [] s v0 ys := by
  refine ⟨i.startA, i.startG, i.startP, i.gInf, i.vInf, i.actV, i.accN, i.edge, ?_⟩
  intro t' hq h n
  obtain ⟨p, c', h1, h2, h3⟩ := i.ptrOk t' hq h n
  refine ⟨p, c', h1, h2, ?_⟩
  rcases h3 with h3 | ⟨h3, h4, c'', h5⟩
  · exact .inl h3
  · rw [List.mem_cons] at h5
    rcases h5 with h5 | h5
    · cases h5; rw [h3] at h1; exact absurd h1 hp
    · exact .inr ⟨h3, h4, c'', h5⟩

/-! ### Expanded states never become underconsistent -/

/-- every state expanded in this iteration comes before every underconsistent state -/
def Jn (gr : Gr) (w : Vals) (C : Nat → Prop) : Prop :=
  ∀ x, gr.Q x → w.V x < w.G x → ∀ c, C c → w.V c + gr.H c < w.V x + gr.H x

theorem Jn.notClosed {gr : Gr} {w : Vals} {C : Nat → Prop} (j : Jn gr w C) {x : Nat} (q : gr.Q x) (h : w.V x < w.G x) :
    ¬ C x := fun c => Nat.lt_irrefl _ (j x q h x c)

theorem Jn.over {gr : Gr} {w : Vals} {C C' : Nat → Prop} (j : Jn gr w C) {s : Nat}
    (hC : ∀ t, C' t ↔ t = s ∨ C t) (hs : ¬ C s)
    (mn : ∀ x, w.V x < w.G x → ¬ C x → w.G s + gr.H s < w.V x + gr.H x) :
    Jn gr { w with V := upd w.V s (w.G s) } C' := by
  intro x q h c hc
  by_cases xs : x = s
  · subst xs; simp at h
  simp only [upd_other _ _ xs] at h ⊢
  rcases (hC c).mp hc with rfl | hc
  · rw [upd_same]; exact mn x h (j.notClosed q h)
  · have : c ≠ s := by rintro rfl; exact hs hc
    rw [upd_other _ _ this]; exact j x q h c hc

theorem Jn.lower {gr : Gr} {w : Vals} {C : Nat → Prop} (j : Jn gr w C) {t n : Nat} {p : Nat → Option Nat}
    (h : n ≤ w.G t) : Jn gr { w with G := upd w.G t n, P := p } C := by
  intro x q lt
  refine j x q ?_
  by_cases e : x = t
  · subst e; simp only [upd_same] at lt; omega
  · simpa only [upd_other _ _ e] using lt

theorem Jn.under {gr : Gr} {w : Vals} {C : Nat → Prop} (j : Jn gr w C) {s : Nat} (hs : ¬ C s)
    (gi : ∀ s, w.G s ≤ INF) : Jn gr { w with V := upd w.V s INF } C := by
  intro x q h c hc
  by_cases xs : x = s
  · subst xs; simp only [upd_same] at h; have := gi x; omega
  simp only [upd_other _ _ xs] at h ⊢
  have : c ≠ s := by rintro rfl; exact hs hc
  rw [upd_other _ _ this]; exact j x q h c hc

theorem Jn.recompute {gr : Gr} {F : Prop} {w : Vals} {C : Nat → Prop} {s v0 t c : Nat} {ys : List (Nat × Nat)}
    (j : Jn gr w C) (i : VInv gr F w 0 [] s v0 ((t, c) :: ys)) (g : GOk gr) (hp : w.P t = some s)
    (vs : w.V s = INF) (f0 : ∀ c, C c → w.V c + gr.H c < v0 + gr.H s)
    {r : Nat × Option Nat} (b : Best w.V (gr.R t) (w.P t) r) :
    Jn gr { w with G := upd w.G t r.1, P := upd w.P t r.2 } C := by
  intro x q h k hk
  by_cases e : x = t
  · subst e
    simp only [upd_same] at h ⊢
    by_cases o : w.V x < w.G x
    · exact j x q o k hk
    · have n0 : x ≠ gr.s0 := by rintro rfl; rw [i.startP] at hp; cases hp
      obtain ⟨p, c', h1, h2, h3⟩ := i.ptrOk x q (by have := b.le; omega) n0
      rw [hp] at h1; cases h1
      have l := b.le
      have h4 : v0 + c' ≤ w.G x := by
        rcases h3 with h3 | ⟨_, h3, _⟩
        · rw [vs] at h3; omega
        · exact h3
      have := g.cons s x c' h2
      have := f0 k hk
      omega
  · simp only [upd_other _ _ e] at h; exact j x q h k hk

/-! ### Suboptimality bound -/

/-- the edges listed by both directions -/
def ed (gr : Gr) (u : Nat) : List (Nat × Nat) := (gr.B u).filter (fun e => decide ((u, e.2) ∈ gr.R e.1))

theorem mem_ed {gr : Gr} {u t c : Nat} : (t, c) ∈ ed gr u ↔ (t, c) ∈ gr.B u ∧ (u, c) ∈ gr.R t := by
  simp [ed]

/-- `E` is a bound by which inflated heuristic values may decrease -/
structure EpsLe (gr : Gr) (D e : Nat) (E : Bnd) : Prop where
  one : E.M ≤ E.N
  le : UpTo (ed gr) gr.H D e E.N E.M

/-- every state expanded in this iteration got a value within the bound -/
def J (gr : Gr) (D e : Nat) (w : Vals) (C : Nat → Prop) : Prop :=
  ∀ E, EpsLe gr D e E → ∀ s c, C s → Walk (ed gr) gr.s0 s c → E.M * w.V s ≤ E.N * c

/-- Along every walk from the start, either the end has a value within the bound or some OPEN state on
the walk has. -/
theorem walk_front {gr : Gr} {w : Vals} (i : Idle gr True w) {D e : Nat} {C : Nat → Prop} (j : J gr D e w C)
    {E : Bnd} (he : EpsLe gr D e E) {n c : Nat} (wk : Walk (ed gr) gr.s0 n c) :
    E.M * w.G n ≤ E.N * c ∨ ∃ o co r, w.G o < w.V o ∧ ¬ C o ∧ E.M * w.G o ≤ E.N * co ∧ co + r = c ∧
      E.M * infl D e (gr.H o) ≤ E.M * infl D e (gr.H n) + E.N * r := by
  induction wk with
  | nil => left; rw [i.startG]; omega
  | @snoc n t c d wk hm ih =>
    have hcons : E.M * infl D e (gr.H n) ≤ E.M * infl D e (gr.H t) + E.N * d := he.le n t d hm
    have e1 : E.N * (c + d) = E.N * c + E.N * d := by ring
    have e2 : E.M * d ≤ E.N * d := Nat.mul_le_mul_right d he.one
    obtain ⟨hb, hr⟩ := mem_ed.mp hm
    rcases ih with ih | ⟨o, co, r, h0, h1, h2, h3, h4⟩
    · rcases i.edge trivial n t d hb hr with ⟨_, hx⟩ | hx
      · cases hx
      by_cases hv : E.M * w.V n ≤ E.N * c
      · left
        have := Nat.mul_le_mul_left E.M hx
        rw [Nat.mul_add] at this
        omega
      · have lt : w.G n < w.V n := by
          by_contra q
          exact hv (Nat.le_trans (Nat.mul_le_mul_left E.M (Nat.le_of_not_lt q)) ih)
        right
        exact ⟨n, c, d, lt, fun hc => hv (j E he n c hc wk), ih, rfl, hcons⟩
    · right; exact ⟨o, co, r + d, h0, h1, h2, by omega, by rw [Nat.mul_add]; omega⟩

theorem front_bound {gr : Gr} {w : Vals} (i : Idle gr True w) {D e : Nat} {C : Nat → Prop} (j : J gr D e w C)
    {E : Bnd} (he : EpsLe gr D e E) {s c X : Nat} (wk : Walk (ed gr) gr.s0 s c)
    (hs : X ≤ w.G s + infl D e (gr.H s))
    (mn : ∀ o, w.G o < w.V o → ¬ C o → X ≤ w.G o + infl D e (gr.H o)) :
    E.M * X ≤ E.N * c + E.M * infl D e (gr.H s) := by
  rcases walk_front i j he wk with h | ⟨o, co, r, h0, h1, h2, h3, h4⟩
  · have := Nat.mul_le_mul_left E.M hs
    rw [Nat.mul_add] at this
    omega
  · have := Nat.mul_le_mul_left E.M (mn o h0 h1)
    rw [Nat.mul_add] at this
    have : E.N * c = E.N * co + E.N * r := by rw [← h3]; ring
    omega

/-- the state expanded overconsistently is within the bound of every walk to it -/
theorem J.over {gr : Gr} {w : Vals} (i : Idle gr True w) {D e : Nat} {C C' : Nat → Prop} (j : J gr D e w C) {s : Nat}
    (hC : ∀ t, C' t ↔ t = s ∨ C t) (hs : ¬ C s)
    (mn : ∀ o, w.G o < w.V o → ¬ C o → w.G s + infl D e (gr.H s) ≤ w.G o + infl D e (gr.H o)) :
    J gr D e { w with V := upd w.V s (w.G s) } C' := by
  intro E he t c hc wk
  rcases (hC t).mp hc with rfl | hc
  · simp only [upd_same]
    have := front_bound i j he wk (Nat.le_refl _) mn
    rw [Nat.mul_add] at this
    omega
  · have : t ≠ s := by rintro rfl; exact hs hc
    simp only [upd_other _ _ this]
    exact j E he t c hc wk

theorem J.under {gr : Gr} {w : Vals} {D e : Nat} {C : Nat → Prop} (j : J gr D e w C) {s : Nat} (hs : ¬ C s) :
    J gr D e { w with V := upd w.V s INF } C := by
  intro E he t c hc wk
  have : t ≠ s := by rintro rfl; exact hs hc
  simp only [upd_other _ _ this]
  exact j E he t c hc wk

/-! ### What survives interrupted searches -/

/-- no underconsistent state can matter for the current solution -/
def Clean (gr : Gr) (gl : Nat) (w : Vals) : Prop := ∀ x, gr.Q x → w.V x < w.G x → w.G gl < w.V x + gr.H x

theorem Clean.mono {gr : Gr} {gl : Nat} {w w' : Vals} (k : Clean gr gl w)
    (h : ∀ x, w'.V x < w'.G x → w'.V x = w.V x ∧ w.V x < w.G x) (hg : w'.G gl ≤ w.G gl) : Clean gr gl w' := by
  intro x q lt
  obtain ⟨h1, h2⟩ := h x lt
  have := k x q h2
  omega

/-- the values `E` for which the inflated heuristic is at most `E` times worse, whatever the graph -/
structure EpsC (D e m : Nat) (E : Bnd) : Prop where
  one : E.M ≤ E.N
  le : ∀ h h' c, m ≤ c → h ≤ h' + c → E.M * infl D e h ≤ E.M * infl D e h' + E.N * c

theorem EpsC.epsLe {gr : Gr} {D e : Nat} {E : Bnd} (g : GOk gr) (k : EpsC D e gr.m E) : EpsLe gr D e E :=
  ⟨k.one, fun s t c h => k.le _ _ _ (g.lo s t c (mem_ed.mp h).1) (g.cons s t c (mem_ed.mp h).1)⟩

/-- the edges out of expanded states -/
def ex (gr : Gr) (V : Nat → Nat) (u : Nat) : List (Nat × Nat) := if V u < INF then ed gr u else []

theorem mem_ex {gr : Gr} {V : Nat → Nat} {u : Nat} {p : Nat × Nat} : p ∈ ex gr V u ↔ V u < INF ∧ p ∈ ed gr u := by
  unfold ex
  split
  next h => simp [h]
  next h => simp [h]

/-- every way out of the expanded part costs at least the current solution (up to the bound) -/
def Sub (gr : Gr) (D e gl : Nat) (w : Vals) : Prop :=
  ∀ E, EpsC D e gr.m E → ∀ o co, Walk (ex gr w.V) gr.s0 o co → (w.V o = INF ∧ (gr.Q o ∨ o = gr.s0)) ∨ o = gl →
    E.M * w.G gl ≤ E.N * co + E.M * infl D e (gr.H o)

theorem ex_walk {gr : Gr} {V : Nat → Nat} {t c : Nat} (w : Walk (ex gr V) gr.s0 t c) : Walk (ed gr) gr.s0 t c := by
  induction w with
  | nil => exact .nil
  | snoc _ h ih => exact .snoc ih (mem_ex.mp h).2

/-- a walk stays in the expanded part or leaves it -/
theorem ed_walk {gr : Gr} (g : GOk gr) {V : Nat → Nat} (vi : ∀ s, V s ≤ INF) {D e : Nat} {E : Bnd}
    (k : EpsC D e gr.m E) {t c : Nat} (w : Walk (ed gr) gr.s0 t c) :
    Walk (ex gr V) gr.s0 t c ∨ ∃ o co r, Walk (ex gr V) gr.s0 o co ∧ V o = INF ∧ (gr.Q o ∨ o = gr.s0) ∧ co + r = c ∧
      E.M * infl D e (gr.H o) ≤ E.M * infl D e (gr.H t) + E.N * r := by
  induction w with
  | nil => exact .inl .nil
  | @snoc n t c d w hm ih =>
    have hb := (mem_ed.mp hm).1
    have hh := (EpsC.epsLe g k).le n t d hm
    change E.M * infl D e (gr.H n) ≤ E.M * infl D e (gr.H t) + E.N * d at hh
    rcases ih with ih | ⟨o, co, r, h1, h2, h3, h4, h5⟩
    · by_cases lt : V n < INF
      · exact .inl (.snoc ih (mem_ex.mpr ⟨lt, hm⟩))
      · refine .inr ⟨n, c, d, ih, by have := vi n; omega, ?_, rfl, hh⟩
        by_contra q
        rw [not_or] at q
        rw [g.iso n q.2 q.1] at hb
        cases hb
    · exact .inr ⟨o, co, r + d, h1, h2, h3, by omega, by rw [Nat.mul_add]; omega⟩

theorem Sub.bound {gr : Gr} {D e gl : Nat} {w : Vals} (s : Sub gr D e gl w) (g : GOk gr) (vi : ∀ s, w.V s ≤ INF)
    {E : Bnd} (k : EpsC D e gr.m E) {t c : Nat} (wk : Walk (ed gr) gr.s0 t c)
    (ht : (w.V t = INF ∧ (gr.Q t ∨ t = gr.s0)) ∨ t = gl) :
    E.M * w.G gl ≤ E.N * c + E.M * infl D e (gr.H t) := by
  rcases ed_walk g vi k wk with h | ⟨o, co, r, h1, h2, h3, h4, h5⟩
  · exact s E k t c h ht
  · have := s E k o co h1 (.inl ⟨h2, h3⟩)
    have : E.N * c = E.N * co + E.N * r := by rw [← h4]; ring
    omega

theorem Sub.mono {gr : Gr} {D e gl : Nat} {w w' : Vals} (s : Sub gr D e gl w) (g : GOk gr) (vi : ∀ s, w.V s ≤ INF)
    (hv : ∀ u, gr.Q u ∨ u = gr.s0 → w'.V u = INF → w.V u = INF) (hg : w'.G gl ≤ w.G gl) : Sub gr D e gl w' := by
  intro E k o co wk ho
  refine Nat.le_trans (Nat.mul_le_mul_left E.M hg) (s.bound g vi k (ex_walk wk) ?_)
  exact ho.imp (fun h => ⟨hv o h.2 h.1, h.2⟩) id

/-- at the end of an iteration -/
theorem sub_intro {gr : Gr} {w : Vals} (g : GOk gr) (i : Idle gr True w) {D e gl : Nat} {C : Nat → Prop}
    (j : J gr D e w C) (cv : ∀ s, C s → w.V s < INF)
    (mn : ∀ o, w.G o < w.V o → ¬ C o → w.G gl ≤ w.G o + infl D e (gr.H o)) : Sub gr D e gl w := by
  intro E k o co wk ho
  refine front_bound i j (k.epsLe g) (ex_walk wk) ?_ mn
  rcases ho with ⟨h1, h2⟩ | rfl
  · have l1 := i.gInf gl
    have l2 := i.gInf o
    by_cases lt : w.G o < w.V o
    · refine mn o lt (fun c => ?_)
      have := cv o c
      omega
    · omega
  · omega

end Sbpl.AD
