import Verif.Model.ARASub
import Verif.Proofs.ARAApi
import Mathlib.Tactic.Linarith
import Mathlib.Tactic.FieldSimp
/-! ARA*: compute_suboptimality. -/

namespace Sbpl.ARA
open GraphSpec Heap PlannerSpec

/-- what holds of the planner right after `replan` -/
structure After (st st' : ARA) (s0 gl : Nat) (res : Result) : Prop where
  inv : SInv st' s0 gl
  acc : st'.acc gl
  env : st'.env = st.env
  fwd : st'.fwd = st.fwd
  D : st'.D = st.D
  found : res.found = true ↔ st'.g gl < INF
  cost : res.cost = st'.g gl
  feps : res.finalEps = st'.epsSat

theorem replan_after {st st' : ARA} {s0 gl : Nat} {bs : List Nat} {res : Result} (i : Api st) (he : EnvOk st.env)
    (h0 : st.start = some s0) (hg : st.goal = some gl) (hb : bs ≠ []) (hr : st.replan bs = .ok (st', res)) :
    After st st' s0 gl res := by
  unfold replan at hr
  have sp := searchProlog_spec i h0 hg
  rw [h0, hg] at hr
  simp only at hr
  cases e1 : st.searchProlog gl with
  | error x => rw [e1] at hr; cases hr
  | ok st1 =>
    rw [e1] at sp hr
    obtain ⟨i1, a1, k1, k2, k3, k4, k5, k6, k7, k8, k9, k10⟩ := sp
    have ls := searchLoop_spec bs i1 (envOk_nbr (by rw [k1]; exact he) i1.goal)
    simp only at hr
    cases e2 : searchLoop gl bs st1 with
    | error x => rw [e2] at hr; cases hr
    | ok r =>
      rw [e2] at ls hr
      obtain ⟨st2, trs⟩ := r
      have l1 := ls.inv; have l2 := ls.frame; have ag := ls.accG hb
      simp only at l1 l2 ag hr
      have envE : st2.env = st.env := l2.env.trans k1
      have fwdE : st2.fwd = st.fwd := l2.fwd.trans k2
      have DE : st2.D = st.D := l2.D.trans k3
      have fin2 : st2.g gl ≤ INF := by
        have := l1.core.GV gl; rw [G_acc ag] at this; omega
      split at hr
      next hx =>
        have hx' : st2.g gl = INF := hx
        cases hr
        exact ⟨l1, ag, envE, fwdE, DE, by simp [hx'], rfl, rfl⟩
      next hx =>
        have lt : st2.g gl < INF := by
          have hx' : st2.g gl ≠ INF := hx
          omega
        obtain ⟨nx, p, c, n, q1, q2, q3, q4, q5, q6⟩ := getSearchPath_spec l1 (by rw [envE]; exact he) ag lt
        rw [q1] at hr
        simp only at hr
        cases hr
        exact ⟨l1.next nx q2, ag, envE, fwdE, DE, by simp [lt], rfl, rfl⟩

/-- Along every walk, either the end already has a value at most the cost, or some state of the walk waits in OPEN or
INCONS with `g + h` at most the cost plus the heuristic value of the end. -/
theorem plain_front {st : ARA} {s0 gl x n c : Nat} (k : Core st s0 x [])
    (hc : UpTo st.base (st.heur gl) 1 1 1 1) (w : Walk st.base s0 n c) :
    st.G n ≤ c ∨ ∃ o, (keyOf st.heap o ≠ none ∨ st.Inc o) ∧ st.g o + st.heur gl o ≤ c + st.heur gl n := by
  induction w with
  | nil => left; rw [G_acc k.startAcc, k.startG]
  | @snoc n t c d w hm ih =>
    have hcons : st.heur gl n ≤ st.heur gl t + d := by
      have := hc n t d hm
      simp only [Nat.one_mul, Nat.div_one] at this
      exact this
    rcases ih with ih | ⟨o, h1, h2⟩
    · rcases k.edge n t d hm with ⟨_, hx⟩ | hx
      · cases hx
      by_cases hv : st.V n ≤ c
      · left; omega
      · have lt : st.G n < st.V n := by omega
        have a : st.acc n := by
          by_contra na; rw [G_stale na, V_stale na] at lt; omega
        rw [G_acc a, V_acc a] at lt
        right
        refine ⟨n, k.ltIn n a lt, ?_⟩
        rw [G_acc a] at ih
        omega
    · right; exact ⟨o, h1, by omega⟩

theorem subMin_le (st : ARA) (s m : Nat) : st.subMin s m ≤ m ∧ st.subMin s m ≤ st.g s + st.h s := by
  unfold subMin; split <;> omega

theorem subOpen_le (st : ARA) (n : Nat) : ∀ i, 1 ≤ i → i ≤ n →
    st.subOpen n ≤ st.g (st.heap.arr i).st + st.h (st.heap.arr i).st := by
  induction n with
  | zero => intro i h1 h2; omega
  | succ n ih =>
    intro i h1 h2
    unfold subOpen
    by_cases q : i = n + 1
    · subst q; exact (subMin_le _ _ _).2
    · exact Nat.le_trans (subMin_le _ _ _).1 (ih i h1 (by omega))

theorem subOpen_attained (st : ARA) (n : Nat) : st.subOpen n = INTMAX ∨ ∃ i, 1 ≤ i ∧ i ≤ n ∧
    st.subOpen n = st.g (st.heap.arr i).st + st.h (st.heap.arr i).st := by
  induction n with
  | zero => left; rfl
  | succ n ih =>
    unfold subOpen subMin
    split
    · right; exact ⟨n + 1, by omega, by omega, rfl⟩
    · rcases ih with ih | ⟨i, h1, h2, h3⟩
      · left; exact ih
      · right; exact ⟨i, h1, by omega, h3⟩

/-- the INCONS loop computes the minimum over the members -/
def listMin (st : ARA) : List Nat → Nat → Nat
  | [], m => m
  | s :: l, m => listMin st l (st.subMin s m)

theorem listMin_le (st : ARA) (l : List Nat) : ∀ m, listMin st l m ≤ m ∧ ∀ s ∈ l, listMin st l m ≤ st.g s + st.h s := by
  induction l with
  | nil => intro m; exact ⟨Nat.le_refl _, by simp⟩
  | cons a l ih =>
    intro m
    have h := ih (st.subMin a m)
    have h2 := subMin_le st a m
    refine ⟨Nat.le_trans h.1 h2.1, ?_⟩
    intro s hs
    rw [List.mem_cons] at hs
    rcases hs with rfl | hs
    · exact Nat.le_trans h.1 h2.2
    · exact h.2 s hs

theorem listMin_attained (st : ARA) (l : List Nat) : ∀ m, listMin st l m = m ∨ ∃ s ∈ l, listMin st l m = st.g s + st.h s := by
  induction l with
  | nil => intro m; exact .inl rfl
  | cons a l ih =>
    intro m
    unfold listMin
    rcases ih (st.subMin a m) with h | ⟨s, hs, h⟩
    · rw [h]; unfold subMin; split
      · exact .inr ⟨a, by simp, rfl⟩
      · exact .inl rfl
    · exact .inr ⟨s, by simp [hs], h⟩

theorem after_split (pre : List Nat) (s : Nat) (suf : List Nat) (nd : (pre ++ s :: suf).Nodup) :
    ListSpec.after (pre ++ s :: suf) s = suf.head? := by
  induction pre with
  | nil => cases suf <;> simp [ListSpec.after]
  | cons p pre ih =>
    rw [List.cons_append, List.nodup_cons] at nd
    have ne : p ≠ s := by rintro rfl; exact nd.1 (by simp)
    rw [List.cons_append]
    cases pre with
    | nil => simpa [ListSpec.after, ne] using ih nd.2
    | cons q pre => simpa [ListSpec.after, ne] using ih nd.2

theorem subIncons_spec {st : ARA} {m : List Nat} (r : CList.Rel st.incons m) : ∀ (suf pre : List Nat) (fuel v : Nat),
    m = pre ++ suf → suf.length < fuel → st.subIncons fuel suf.head? v = .ok (listMin st suf v) := by
  intro suf
  induction suf with
  | nil => intro pre fuel v _ _; unfold subIncons; rfl
  | cons s suf ih =>
    intro pre fuel v e hl
    obtain ⟨f, rfl⟩ : ∃ f, fuel = f + 1 := ⟨fuel - 1, by omega⟩
    have nx := CList.getNext_rel r s (by rw [e]; simp)
    have nd := r.nds
    rw [e] at nx nd
    rw [after_split pre s suf nd] at nx
    simp only [List.head?_cons]
    unfold subIncons
    rw [nx]
    simp only [List.length_cons] at hl
    exact ih (pre ++ [s]) f _ (by rw [e]; simp) (by omega)

/-- compute_suboptimality after the INCONS traversal -/
theorem computeSub_eq {st : ARA} (d : Data st) {gl : Nat} (hg : st.goal = some gl) : ∃ im,
    (∀ s, st.Inc s → im ≤ st.g s + st.h s) ∧ (im = INTMAX ∨ ∃ s, st.Inc s ∧ im = st.g s + st.h s) ∧
    st.computeSub = .ok (if min (st.subOpen (st.heap.size - 1)) im = INTMAX then none else
      some (max 1 (if min (st.subOpen (st.heap.size - 1)) im = 0 then st.epsSatQ else
        min st.epsSatQ ((st.g gl : ℚ) / (min (st.subOpen (st.heap.size - 1)) im : Nat))))) := by
  obtain ⟨m, ⟨r⟩⟩ := d.lrel
  refine ⟨listMin st m INTMAX, ?_, ?_, ?_⟩
  · intro s hs; exact (listMin_le st m INTMAX).2 s ((Inc_iff r s).mp hs)
  · rcases listMin_attained st m INTMAX with h | ⟨s, hs, h⟩
    · exact .inl h
    · exact .inr ⟨s, (Inc_iff r s).mpr hs, h⟩
  · unfold computeSub
    rw [getFirst_rel r]
    simp only
    rw [subIncons_spec r m [] (st.incons.size + 1) INTMAX rfl (by rw [r.size]; omega)]
    simp only [hg]
    have e : (if st.subOpen (st.heap.size - 1) < listMin st m INTMAX then st.subOpen (st.heap.size - 1)
        else listMin st m INTMAX) = min (st.subOpen (st.heap.size - 1)) (listMin st m INTMAX) := by
      split <;> omega
    rw [e]
    split <;> rfl

end Sbpl.ARA
