import Verif.Proofs.ANASearch
import Verif.Spec.Planner
/-! ANA*: path extraction. -/

namespace Sbpl.ANA
open GraphSpec Heap PlannerSpec
open ARA (Link setNexts setNexts_out link_append link_congr setNexts_link pathCost_snoc nodup_rev envGoal envStart)

/-- back-pointer chain down to the search start -/
inductive Chain (st : ANA) (s0 : Nat) : List Nat → Prop
  | start : st.acc s0 → st.g s0 < INF → Chain st s0 [s0]
  | cons {s p c : Nat} {r : List Nat} : s ≠ s0 → st.acc s → st.g s < INF → st.ptr s = some p →
      (s, c) ∈ st.base p → 1 ≤ c → st.v p + c ≤ st.g s → st.g p ≤ st.v p →
      Chain st s0 (p :: r) → Chain st s0 (s :: p :: r)

theorem chain_exists {st : ANA} {s0 : Nat} (c : Core st s0) (pos : Pos st) (n : Nat) :
    ∀ s, st.g s ≤ n → st.acc s → st.g s < INF → ∃ L, Chain st s0 (s :: L) ∧ L.length ≤ st.g s := by
  induction n with
  | zero =>
    intro s h a lt
    by_cases q : s = s0
    · subst q; exact ⟨[], .start a lt, by simp⟩
    · obtain ⟨p, k, h1, h2, h3, h4⟩ := c.ptrOk s a lt q
      have := pos p s k h2
      omega
  | succ n ih =>
    intro s h a lt
    by_cases q : s = s0
    · subst q; exact ⟨[], .start a lt, by simp⟩
    · obtain ⟨p, k, h1, h2, h3, h4⟩ := c.ptrOk s a lt q
      have h5 := pos p s k h2
      have h6 := c.gv p h3
      obtain ⟨L, hL, hl⟩ := ih p (by omega) h3 (by omega)
      exact ⟨p :: L, .cons q a lt h1 h2 h5 h4 h6 hL, by simp only [List.length_cons]; omega⟩

theorem Chain.lt {st : ANA} {s0 : Nat} {L : List Nat} (h : Chain st s0 L) :
    ∀ s r, L = s :: r → (∀ x ∈ r, st.g x < st.g s) ∧ r.Nodup := by
  induction h with
  | start a b =>
    intro s r e
    cases e; simp
  | @cons s p c r' h1 h2 h3 h4 h5 h6 h7 h8 h9 ih =>
    intro s' r e
    cases e
    obtain ⟨i1, i2⟩ := ih p r' rfl
    refine ⟨?_, ?_⟩
    · intro x hx
      rw [List.mem_cons] at hx
      rcases hx with rfl | hx
      · omega
      · have := i1 x hx; omega
    · refine List.nodup_cons.mpr ⟨?_, i2⟩
      intro hp; have := i1 p hp; omega

theorem Chain.nodup {st : ANA} {s0 : Nat} {L : List Nat} (h : Chain st s0 L) : L.Nodup := by
  cases L with
  | nil => simp
  | cons s r =>
    obtain ⟨a, b⟩ := h.lt s r rfl
    exact List.nodup_cons.mpr ⟨fun hs => Nat.lt_irrefl _ (a s hs), b⟩

theorem Chain.last {st : ANA} {s0 : Nat} {L : List Nat} (h : Chain st s0 L) : L.getLast? = some s0 := by
  induction h with
  | start => rfl
  | cons _ _ _ _ _ _ _ _ _ ih => rw [List.getLast?_cons_cons]; exact ih

theorem Chain.fin {st : ANA} {s0 : Nat} {L : List Nat} (h : Chain st s0 L) : ∀ x ∈ L, st.g x < INF := by
  induction h with
  | start a b => intro x hx; simp at hx; subst hx; exact b
  | @cons s p c r h1 h2 h3 h4 h5 h6 h7 h8 h9 ih =>
    intro x hx
    rw [List.mem_cons] at hx
    rcases hx with rfl | hx
    · exact h3
    · exact ih x hx

theorem Chain.link {st : ANA} {s0 : Nat} {L : List Nat} (h : Chain st s0 L) : Link st.ptr L := by
  induction h with
  | start => trivial
  | cons _ _ _ h4 _ _ _ _ _ ih => exact ⟨h4, ih⟩

theorem Chain.congr_next {st : ANA} {s0 : Nat} {L : List Nat} (h : Chain st s0 L) (f : st.fwd = true)
    (nx : Nat → Option Nat) : Chain { st with next := nx } s0 L := by
  induction h with
  | start a b => exact .start a b
  | cons h1 h2 h3 h4 h5 h6 h7 h8 _ ih =>
    refine .cons h1 h2 h3 ?_ h5 h6 h7 h8 ih
    simp only [ptr, f, if_true] at h4 ⊢; exact h4

theorem reconstruct_spec (L : List Nat) : ∀ {st : ANA} {s0 s : Nat} (fuel : Nat), Chain st s0 (s :: L) →
    st.fwd = true → L.length < fuel →
    reconstruct s0 fuel st s = .ok (some { st with next := setNexts st.next (s :: L) }) := by
  induction L with
  | nil =>
    intro st s0 s fuel h _ hl
    cases fuel with
    | zero => omega
    | succ n => cases h; simp [reconstruct, setNexts]
  | cons p r ih =>
    intro st s0 s fuel h f hl
    cases fuel with
    | zero => omega
    | succ n =>
      cases h with
      | @cons _ _ c _ h1 h2 h3 h4 h5 h6 h7 h8 h9 =>
        unfold reconstruct
        have pr : st.par s = some p := by simpa [ptr, f] using h4
        rw [if_neg h1, if_neg (by unfold INF at h3; omega), pr]
        simp only
        rw [if_neg (by omega)]
        have := ih n (h9.congr_next f (upd st.next p (some s))) f (by simp only [List.length_cons] at hl; omega)
        rw [this]
        rfl

theorem follow_spec (L : List Nat) : ∀ {st : ANA} {tgt a : Nat} (fuel : Nat), Link st.next (a :: L) →
    (a :: L).getLast? = some tgt → (a :: L).Nodup → (∀ x ∈ a :: L, st.g x < INF) → L.length < fuel →
    follow tgt fuel st a = .ok (a :: L) := by
  induction L with
  | nil =>
    intro st tgt a fuel _ hl _ _ hf
    cases fuel with
    | zero => omega
    | succ n =>
      simp at hl; subst hl
      simp [follow]
  | cons b r ih =>
    intro st tgt a fuel hk hl nd hg hf
    cases fuel with
    | zero => omega
    | succ n =>
      have ne : a ≠ tgt := by
        rintro rfl
        rw [List.getLast?_cons_cons] at hl
        exact (List.nodup_cons.mp nd).1 (List.mem_of_getLast? hl)
      rw [List.getLast?_cons_cons] at hl
      have hc := ih n hk.2 hl (List.nodup_cons.mp nd).2 (fun x hx => hg x (List.mem_cons_of_mem _ hx))
        (by simp only [List.length_cons] at hf; omega)
      have ga := hg a (by simp)
      unfold follow
      rw [if_neg ne, hk.1]
      simp only
      rw [if_neg (by unfold INF at ga; omega), hc]

theorem Chain.pathF {st : ANA} {s0 : Nat} {L : List Nat} (h : Chain st s0 L) {succ : Nat → List (Nat × Nat)}
    (hs : ∀ s p c r, L = s :: r → p ∈ r → ∀ q, (q, c) ∈ st.base p → (q, c) ∈ succ p) :
    ∀ s r, L = s :: r → ∃ n, PathCost succ L.reverse n ∧ n ≤ st.g s := by
  induction h with
  | start => intro s r e; cases e; exact ⟨0, .single _, by omega⟩
  | @cons s p c r h1 h2 h3 h4 h5 h6 h7 h8 h9 ih =>
    intro s' r' e
    cases e
    obtain ⟨n, i1, i2⟩ := ih (by
      intro s' p' c' r' e hp q hq
      cases e
      exact hs s p' c' _ rfl (List.mem_cons_of_mem _ hp) q hq) p r rfl
    refine ⟨n + c, ?_, by omega⟩
    rw [List.reverse_cons]
    refine pathCost_snoc i1 ?_ (hs s p c _ rfl (by simp) s h5)
    rw [List.getLast?_reverse]; rfl

theorem Chain.pathB {st : ANA} {s0 : Nat} {L : List Nat} (h : Chain st s0 L) {succ : Nat → List (Nat × Nat)}
    (hs : ∀ s p c, s ≠ s0 → (s, c) ∈ st.base p → (p, c) ∈ succ s) :
    ∀ s r, L = s :: r → ∃ n, PathCost succ L n ∧ n ≤ st.g s := by
  induction h with
  | start => intro s r e; cases e; exact ⟨0, .single _, by omega⟩
  | @cons s p c r h1 h2 h3 h4 h5 h6 h7 h8 h9 ih =>
    intro s' r' e
    cases e
    obtain ⟨n, i1, i2⟩ := ih p r rfl
    exact ⟨c + n, .cons (hs s p c h1 h5) i1, by omega⟩

theorem envOk_base {st : ANA} (he : EnvOk st.env) : Pos st := by
  intro u t c h
  unfold base at h
  split at h
  · exact he.posS _ _ _ _ h
  · exact he.posP _ _ _ _ h

theorem envOk_nbr {st : ANA} {gl : Nat} (he : EnvOk st.env) (g : st.goal = some gl) : NbrOk st gl := by
  intro s q e
  unfold nbr base
  cases f : st.fwd
  · simp
  · simp only [if_true, g, Option.getD_some]
    rw [he.goalIndep (s + 1) gl s (by omega) q]

theorem getSearchPath_spec {st : ANA} {s0 gl : Nat} (i : SInv st s0 gl) (he : EnvOk st.env) (ag : st.acc gl)
    (lt : st.g gl < INF) :
    ∃ nx p n, st.getSearchPath (st.g gl + 1) s0 gl = .ok ({ st with next := nx }, p) ∧
      (st.fwd = false → nx = st.next) ∧
      FromTo p (envStart st.fwd s0 gl) (envGoal st.fwd s0 gl) ∧ p.Nodup ∧
      PathCost (st.env.succs (envGoal st.fwd s0 gl)) p n ∧ n ≤ st.g gl := by
  obtain ⟨L, hL, hl⟩ := chain_exists i.core (envOk_base he) (st.g gl) gl (Nat.le_refl _) ag lt
  have nd := hL.nodup
  unfold getSearchPath envStart envGoal
  by_cases f : st.fwd = true
  rotate_left
  · simp only [if_neg f]
    have f : st.fwd = false := by simpa using f
    have lk : Link st.next (gl :: L) := by
      have := hL.link
      have e : st.ptr = st.next := by funext x; simp [ptr, f]
      rw [e] at this; exact this
    have hc := follow_spec L (st := st) (tgt := s0) (st.g gl + 1) lk hL.last nd hL.fin (by omega)
    simp only [hc]
    obtain ⟨n, p1, p2⟩ := hL.pathB (succ := st.env.succs s0) (by
      intro s p c ne hm
      refine he.dualP s0 s p c ne ?_
      have : st.base p = st.env.preds s0 p := by simp [base, f, i.start]
      rw [this] at hm; exact hm) gl L rfl
    exact ⟨st.next, gl :: L, n, rfl, fun _ => rfl, ⟨rfl, hL.last⟩, nd, p1, p2⟩
  · simp only [if_pos f]
    rw [reconstruct_spec L (st.g gl + 1) hL f (by omega)]
    simp only [Option.getD_some]
    have lk := setNexts_link L st.next gl nd
    have hd : (gl :: L).reverse.head? = some s0 := by rw [List.head?_reverse]; exact hL.last
    have hlast : (gl :: L).reverse.getLast? = some gl := by rw [List.getLast?_reverse]; rfl
    have nd' : (gl :: L).reverse.Nodup := nodup_rev nd
    obtain ⟨n, p1, p2⟩ := hL.pathF (succ := st.env.succs gl) (by
      intro s p c r e hp q hm
      cases e
      have ne : p ≠ gl := by rintro rfl; exact (List.nodup_cons.mp nd).1 hp
      have : st.base p = st.env.succs gl p := by
        simp only [base, f, if_true]; exact he.goalIndep _ _ _ (by omega) ne
      rw [this] at hm; exact hm) gl L rfl
    have fin' : ∀ x ∈ (gl :: L).reverse, st.g x < INF := by
      intro x hx; exact hL.fin x (List.mem_reverse.mp hx)
    have len' : (gl :: L).reverse.length = L.length + 1 := by simp
    generalize (gl :: L).reverse = R at *
    cases R with
    | nil => simp at hd
    | cons a R =>
      simp only [List.head?_cons, Option.some.injEq] at hd
      subst hd
      have hc := follow_spec R (st := { st with next := setNexts st.next (gl :: L) }) (tgt := gl)
        (st.g gl + 1) lk hlast nd' fin' (by simp only [List.length_cons] at len'; omega)
      simp only [hc]
      exact ⟨_, a :: R, n, rfl, fun x => by simp [f] at x, ⟨rfl, hlast⟩, nd', p1, p2⟩

end Sbpl.ANA
