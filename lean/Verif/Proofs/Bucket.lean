import Verif.Model.Bucket
import Mathlib.Tactic.SplitIfs
/-! # Proofs about `CBucket` -/

namespace Sbpl.Bucket

theorem upd_same {α : Type} (f : Nat → α) (i : Nat) (v : α) : upd f i v i = v := by simp [upd]
theorem upd_ne {α : Type} (f : Nat → α) {i j : Nat} (v : α) (h : j ≠ i) : upd f i v j = f j := by simp [upd, h]

theorem firstFull_none {bk : Nat → List Nat} : ∀ {k b : Nat}, firstFull bk k b = none → ∀ i, b ≤ i → i < b + k → bk i = []
  | 0, b, _, i, h1, h2 => by omega
  | k + 1, b, h, i, h1, h2 => by
    rw [firstFull] at h
    by_cases hb : bk b ≠ []
    · rw [if_pos hb] at h; cases h
    · rw [if_neg hb] at h
      by_cases e : i = b
      · subst e; simpa using hb
      · exact firstFull_none h i (by omega) (by omega)

theorem firstFull_some {bk : Nat → List Nat} : ∀ {k b i : Nat}, firstFull bk k b = some i → b ≤ i ∧ i < b + k ∧ bk i ≠ [] ∧ ∀ j, b ≤ j → j < i → bk j = []
  | 0, b, i, h => by cases h
  | k + 1, b, i, h => by
    rw [firstFull] at h
    by_cases hb : bk b ≠ []
    · rw [if_pos hb] at h; cases h; exact ⟨by omega, by omega, hb, fun j h1 h2 => by omega⟩
    · rw [if_neg hb] at h
      obtain ⟨h1, h2, h3, h4⟩ := firstFull_some h
      refine ⟨by omega, by omega, h3, fun j h5 h6 => ?_⟩
      by_cases e : j = b
      · subst e; simpa using hb
      · exact h4 j (by omega) h6

theorem minLoop_spec {ass : List Nat} : ∀ {k e p i : Nat}, (∀ j, e ≤ j → j < e + k → ∃ q, ass[j]? = some q) →
    ∃ p' i', minLoop ass e k p i = .ok (p', i') ∧ p' ≤ p ∧ (∀ j q, e ≤ j → j < e + k → ass[j]? = some q → p' ≤ q) ∧
      ((p' = p ∧ i' = i) ∨ (e ≤ i' ∧ i' < e + k ∧ ass[i']? = some p'))
  | 0, e, p, i, _ => ⟨p, i, rfl, Nat.le_refl _, fun j q h1 h2 => by omega, .inl ⟨rfl, rfl⟩⟩
  | k + 1, e, p, i, h => by
    obtain ⟨q, hq⟩ := h e (by omega) (by omega)
    rw [minLoop, hq]
    dsimp only
    by_cases hp : p > q
    · rw [if_pos hp]
      obtain ⟨p', i', h1, h2, h3, h4⟩ := minLoop_spec (k := k) (e := e + 1) (p := q) (i := e) (fun j a b => h j (by omega) (by omega))
      refine ⟨p', i', h1, by omega, fun j r a b hr => ?_, ?_⟩
      · by_cases ej : j = e
        · subst ej; rw [hq] at hr; cases hr; exact h2
        · exact h3 j r (by omega) (by omega) hr
      · rcases h4 with ⟨rfl, rfl⟩ | ⟨a, b, c⟩
        · exact .inr ⟨by omega, by omega, hq⟩
        · exact .inr ⟨by omega, by omega, c⟩
    · rw [if_neg hp]
      obtain ⟨p', i', h1, h2, h3, h4⟩ := minLoop_spec (k := k) (e := e + 1) (p := p) (i := i) (fun j a b => h j (by omega) (by omega))
      refine ⟨p', i', h1, h2, fun j r a b hr => ?_, ?_⟩
      · by_cases ej : j = e
        · subst ej; rw [hq] at hr; cases hr; omega
        · exact h3 j r (by omega) (by omega) hr
      · rcases h4 with h4 | ⟨a, b, c⟩
        · exact .inl h4
        · exact .inr ⟨by omega, by omega, c⟩

/-- the stored minimum is right -/
def MinOk (st : Bucket) : Prop :=
  (st.minB = none ∧ st.minP = INF ∧ ∀ b, b < st.nb → st.bk b = []) ∨
  ∃ b, st.minB = some b ∧ b < st.nb ∧ (∀ b', b' < b → st.bk b' = []) ∧ st.bk b ≠ [] ∧
    ((b < st.nb - 2 ∧ st.minP = b ∧ st.minI = 0) ∨
     (b = st.nb - 2 ∧ st.minP < INF ∧ st.minI < (st.bk b).length ∧ st.ass[st.minI]? = some st.minP ∧ ∀ i q, i < (st.bk b).length → st.ass[i]? = some q → st.minP ≤ q) ∨
     (b = st.nb - 1 ∧ st.minP = INF ∧ st.minI = 0))

theorem recompute_ok {st : Bucket} (hn : 3 ≤ st.nb) {b : Nat} (hb : b < st.nb) (he : ∀ b', b' < b → st.bk b' = [])
    (ha : ∀ i, i < (st.bk (st.nb - 2)).length → ∃ q, st.ass[i]? = some q ∧ q < INF) :
    ∃ mb mp mi, st.recompute b = .ok { st with minB := mb, minP := mp, minI := mi } ∧ MinOk { st with minB := mb, minP := mp, minI := mi } := by
  unfold recompute
  cases hf : firstFull st.bk (st.nb - b) b with
  | none =>
    refine ⟨none, INF, INF, rfl, .inl ⟨rfl, rfl, fun b' hb' => ?_⟩⟩
    have hb' : b' < st.nb := hb'
    by_cases h : b' < b
    · exact he b' h
    · exact firstFull_none hf b' (by omega) (by omega)
  | some i =>
    obtain ⟨h1, h2, h3, h4⟩ := firstFull_some hf
    have h5 : ∀ b', b' < i → st.bk b' = [] := fun b' hb' => by
      by_cases h : b' < b
      · exact he b' h
      · exact h4 b' (by omega) hb'
    dsimp only
    by_cases c1 : i < st.nb - 2
    · rw [if_pos c1]
      exact ⟨some i, i, 0, rfl, .inr ⟨i, rfl, by dsimp only; omega, h5, h3, .inl ⟨c1, rfl, rfl⟩⟩⟩
    · rw [if_neg c1]
      by_cases c2 : i = st.nb - 2
      · rw [if_pos c2]
        obtain ⟨p', i', k1, k2, k3, k4⟩ := minLoop_spec (ass := st.ass) (k := (st.bk i).length) (e := 0) (p := INF) (i := INF) (fun j _ hj => by
          obtain ⟨q, hq, _⟩ := ha j (by rw [← c2]; omega)
          exact ⟨q, hq⟩)
        rw [k1]
        dsimp only
        have hpos : 0 < (st.bk i).length := List.length_pos_iff.mpr h3
        obtain ⟨q0, hq0, hlt⟩ := ha 0 (by rw [← c2]; exact hpos)
        have hp' : p' < INF := by
          have := k3 0 q0 (Nat.le_refl _) (by omega) hq0
          omega
        rw [if_neg (by omega)]
        refine ⟨some i, p', i', rfl, .inr ⟨i, rfl, by dsimp only; omega, h5, h3, .inr (.inl ⟨c2, hp', ?_⟩)⟩⟩
        rcases k4 with ⟨e, _⟩ | ⟨_, a2, a3⟩
        · omega
        · exact ⟨by dsimp only; omega, a3, fun j q hj hq => k3 j q (by omega) (by have : j < (st.bk i).length := hj; omega) hq⟩
      · rw [if_neg c2]
        exact ⟨some i, INF, 0, rfl, .inr ⟨i, rfl, by dsimp only; omega, h5, h3, .inr (.inr ⟨by dsimp only; omega, rfl, rfl⟩)⟩⟩

/-- the data structure represents the priority queue `m`; `d`: an element was removed from the overflow bucket -/
structure Rep (st : Bucket) (m : Nat → Option Nat) (d : Bool) : Prop where
  nb3 : 3 ≤ st.nb
  le : ∀ a p, m a = some p → p ≤ INF
  fwd : ∀ a p, m a = some p → ∃ i, st.hidx a = some i ∧ (st.bk (st.ixI p))[i]? = some a
  bwd : ∀ (b i a : Nat), (st.bk b)[i]? = some a → ∃ p, m a = some p ∧ st.ixI p = b ∧ st.hidx a = some i
  out : ∀ a, m a = none → st.hidx a = none
  ass : ∀ (i a : Nat), (st.bk (st.nb - 2))[i]? = some a → st.ass[i]? = m a
  len : d = false → st.ass.length = (st.bk (st.nb - 2)).length
  min : MinOk st

variable {st : Bucket} {m : Nat → Option Nat} {d : Bool}

theorem ixI_lt (h : 3 ≤ st.nb) (p : Nat) : st.ixI p < st.nb := by unfold ixI; split_ifs <;> omega
theorem ixR_eq (h : 3 ≤ st.nb) (p : Nat) : st.ixR p = st.ixI p := by unfold ixR ixI; split_ifs <;> omega
theorem ixI_over (h : 3 ≤ st.nb) {p : Nat} : st.ixI p = st.nb - 2 ↔ st.nb - 2 ≤ p ∧ p ≠ INF := by
  unfold ixI; split_ifs <;> omega
theorem ixI_low (h : 3 ≤ st.nb) {p : Nat} (hp : st.ixI p < st.nb - 2) : st.ixI p = p ∧ p ≠ INF := by
  unfold ixI at hp ⊢; split_ifs at hp ⊢ <;> omega
theorem ixI_last (h : 3 ≤ st.nb) {p : Nat} (hp : st.ixI p = st.nb - 1) : p = INF := by
  unfold ixI at hp; split_ifs at hp <;> omega

theorem Rep.over_lt (r : Rep st m d) (i : Nat) (hi : i < (st.bk (st.nb - 2)).length) : ∃ q, st.ass[i]? = some q ∧ q < INF := by
  have h1 : (st.bk (st.nb - 2))[i]? = some (st.bk (st.nb - 2))[i] := List.getElem?_eq_getElem hi
  obtain ⟨p, h2, h3, _⟩ := r.bwd _ _ _ h1
  have h4 := r.ass _ _ h1
  have h5 := r.le _ _ h2
  have := (ixI_over r.nb3).mp h3
  exact ⟨p, by rw [h4, h2], by omega⟩

theorem Rep.bk_empty (r : Rep st m d) {b : Nat} (hb : ∀ a p, m a = some p → st.ixI p ≠ b) : st.bk b = [] := by
  cases h : st.bk b with
  | nil => rfl
  | cons a l =>
    obtain ⟨p, h1, h2, _⟩ := r.bwd b 0 a (by rw [h]; rfl)
    exact absurd h2 (hb a p h1)

theorem Rep.not_empty (r : Rep st m d) {a p : Nat} (h : m a = some p) : st.bk (st.ixI p) ≠ [] := by
  obtain ⟨i, _, h2⟩ := r.fwd a p h
  intro e; rw [e] at h2; cases h2

/-- where the minimum is: `minP` is the least priority, and the element is present with it -/
theorem Rep.min_spec (r : Rep st m d) : (st.minB = none ∧ st.minP = INF ∧ ∀ a, m a = none) ∨
    ∃ b a, st.minB = some b ∧ (st.bk b)[st.minI]? = some a ∧ m a = some st.minP ∧ st.ixI st.minP = b ∧ ∀ a' q, m a' = some q → st.minP ≤ q := by
  have hn := r.nb3
  rcases r.min with ⟨h1, h2, h3⟩ | ⟨b, h1, h2, h3, h4, h5⟩
  · refine .inl ⟨h1, h2, fun a => ?_⟩
    cases ha : m a with
    | none => rfl
    | some p => exact absurd (h3 _ (ixI_lt hn p)) (r.not_empty ha)
  · right
    have hge : ∀ a' q, m a' = some q → b ≤ st.ixI q := fun a' q h => by
      by_contra hlt
      exact r.not_empty h (h3 _ (by omega))
    have hpos : 0 < (st.bk b).length := List.length_pos_iff.mpr h4
    rcases h5 with ⟨c1, c2, c3⟩ | ⟨c1, c2, c3, c4, c5⟩ | ⟨c1, c2, c3⟩
    · have e : (st.bk b)[st.minI]? = some (st.bk b)[0] := by rw [c3]; exact List.getElem?_eq_getElem hpos
      obtain ⟨p, p1, p2, _⟩ := r.bwd b _ _ e
      obtain ⟨q1, q2⟩ := ixI_low hn (p := p) (by omega)
      have ep : p = st.minP := by omega
      subst ep
      refine ⟨b, _, h1, e, p1, p2, fun a' q h => ?_⟩
      have := hge a' q h
      have hq := r.le a' q h
      have hp := r.le _ _ p1
      unfold ixI at this
      split_ifs at this <;> omega
    · have e : (st.bk b)[st.minI]? = some (st.bk b)[st.minI] := List.getElem?_eq_getElem c3
      obtain ⟨p, p1, p2, _⟩ := r.bwd b _ _ e
      have := r.ass _ _ (by rw [← c1]; exact e)
      rw [c4, p1] at this
      cases this
      refine ⟨b, _, h1, e, p1, p2, fun a' q h => ?_⟩
      have h6 := hge a' q h
      by_cases h7 : st.ixI q = st.nb - 2
      · obtain ⟨i, i1, i2⟩ := r.fwd a' q h
        rw [h7] at i2
        have h8 := r.ass _ _ i2
        rw [h] at h8
        have : i < (st.bk (st.nb - 2)).length := (List.getElem?_eq_some_iff.mp i2).1
        exact c5 i q (by rw [c1]; exact this) h8
      · have h9 := ixI_lt hn q
        have := ixI_last hn (p := q) (by omega)
        omega
    · have e : (st.bk b)[st.minI]? = some (st.bk b)[0] := by rw [c3]; exact List.getElem?_eq_getElem hpos
      obtain ⟨p, p1, p2, _⟩ := r.bwd b _ _ e
      have := ixI_last hn (p := p) (by omega)
      refine ⟨b, _, h1, e, by rw [p1, this, c2], by rw [c2, ← this]; exact p2, fun a' q h => ?_⟩
      have h6 := hge a' q h
      have h9 := ixI_lt hn q
      have := ixI_last hn (p := q) (by omega)
      omega

theorem rep_new {first max : Nat} : Rep (new first max) (fun _ => none) false where
  nb3 := by simp [new]
  le := by intro a p h; cases h
  fwd := by intro a p h; cases h
  bwd := by intro b i a h; simp [new] at h
  out := by intro a _; rfl
  ass := by intro i a h; simp [new] at h
  len := by intro _; rfl
  min := .inl ⟨rfl, rfl, fun _ _ => rfl⟩

/-- everything but the stored minimum -/
structure Rep' (st : Bucket) (m : Nat → Option Nat) (d : Bool) : Prop where
  nb3 : 3 ≤ st.nb
  le : ∀ a p, m a = some p → p ≤ INF
  fwd : ∀ a p, m a = some p → ∃ i, st.hidx a = some i ∧ (st.bk (st.ixI p))[i]? = some a
  bwd : ∀ (b i a : Nat), (st.bk b)[i]? = some a → ∃ p, m a = some p ∧ st.ixI p = b ∧ st.hidx a = some i
  out : ∀ a, m a = none → st.hidx a = none
  ass : ∀ (i a : Nat), (st.bk (st.nb - 2))[i]? = some a → st.ass[i]? = m a
  len : d = false → st.ass.length = (st.bk (st.nb - 2)).length

theorem Rep'.over_lt (r : Rep' st m d) (i : Nat) (hi : i < (st.bk (st.nb - 2)).length) : ∃ q, st.ass[i]? = some q ∧ q < INF := by
  have h1 : (st.bk (st.nb - 2))[i]? = some (st.bk (st.nb - 2))[i] := List.getElem?_eq_getElem hi
  obtain ⟨p, h2, h3, _⟩ := r.bwd _ _ _ h1
  have h4 := r.ass _ _ h1
  have h5 := r.le _ _ h2
  have := (ixI_over r.nb3).mp h3
  exact ⟨p, by rw [h4, h2], by omega⟩

theorem Rep'.recompute (r : Rep' st m d) {b : Nat} (hb : b < st.nb) (he : ∀ b', b' < b → st.bk b' = []) :
    ∃ st', st.recompute b = .ok st' ∧ Rep st' m d ∧ st'.nb = st.nb := by
  obtain ⟨mb, mp, mi, h1, h2⟩ := recompute_ok r.nb3 hb he r.over_lt
  exact ⟨_, h1, ⟨r.nb3, r.le, r.fwd, r.bwd, r.out, r.ass, r.len, h2⟩, rfl⟩

theorem rep_insert (r : Rep st m d) {a p : Nat} (ha : m a = none) (hp : p ≤ INF) (hd : d = true → ¬ (st.nb - 2 ≤ p ∧ p ≠ INF)) :
    ∃ st', st.insert a p = .ok st' ∧ Rep st' (upd m a (some p)) d ∧ st'.nb = st.nb := by
  have hn := r.nb3
  unfold insert
  dsimp only
  generalize hb : st.ixI p = b
  have hbn : b < st.nb := by rw [← hb]; exact ixI_lt hn p
  generalize hst1 : ({ st with bk := upd st.bk b (st.bk b ++ [a]), hidx := upd st.hidx a (some ((st.bk b ++ [a]).length - 1)), ass := if b = st.nb - 2 then st.ass ++ [p] else st.ass } : Bucket) = st1
  have e_nb : st1.nb = st.nb := by rw [← hst1]
  have e_bk : st1.bk = upd st.bk b (st.bk b ++ [a]) := by rw [← hst1]
  have e_hidx : st1.hidx = upd st.hidx a (some (st.bk b).length) := by rw [← hst1]; simp
  have e_ass : st1.ass = if b = st.nb - 2 then st.ass ++ [p] else st.ass := by rw [← hst1]
  have e_ix : ∀ q, st1.ixI q = st.ixI q := fun q => by unfold ixI; rw [e_nb]
  have hnot : ∀ (b' i : Nat), (st.bk b')[i]? ≠ some a := fun b' i h => by
    obtain ⟨q, h1, _⟩ := r.bwd b' i a h
    rw [ha] at h1; cases h1
  have r1 : Rep' st1 (upd m a (some p)) d := by
    refine ⟨by rw [e_nb]; exact hn, ?_, ?_, ?_, ?_, ?_, ?_⟩
    · intro x q h
      by_cases e : x = a
      · subst e; rw [upd_same] at h; cases h; exact hp
      · rw [upd_ne _ _ e] at h; exact r.le x q h
    · intro x q h
      rw [e_ix, e_hidx, e_bk]
      by_cases e : x = a
      · subst e
        rw [upd_same] at h; cases h
        refine ⟨_, upd_same _ _ _, ?_⟩
        rw [hb, upd_same]; simp
      · rw [upd_ne _ _ e] at h ⊢
        obtain ⟨i, h1, h2⟩ := r.fwd x q h
        refine ⟨i, h1, ?_⟩
        by_cases e2 : st.ixI q = b
        · rw [e2, upd_same]
          rw [e2] at h2
          rw [List.getElem?_append_left (List.getElem?_eq_some_iff.mp h2).1]
          exact h2
        · rw [upd_ne _ _ e2]; exact h2
    · intro b' i x h
      rw [e_bk] at h
      rw [e_hidx]
      have key : (st.bk b')[i]? = some x → ∃ q, upd m a (some p) x = some q ∧ st1.ixI q = b' ∧ upd st.hidx a (some (st.bk b).length) x = some i := by
        intro h
        have hx : x ≠ a := fun e => hnot b' i (by rw [← e]; exact h)
        obtain ⟨q, h1, h2, h3⟩ := r.bwd b' i x h
        exact ⟨q, by rw [upd_ne _ _ hx]; exact h1, by rw [e_ix]; exact h2, by rw [upd_ne _ _ hx]; exact h3⟩
      by_cases e2 : b' = b
      · subst e2
        rw [upd_same] at h
        by_cases hi : i < (st.bk b').length
        · rw [List.getElem?_append_left hi] at h
          exact key h
        · have hi2 : i = (st.bk b').length := by
            have := (List.getElem?_eq_some_iff.mp h).1
            simp at this; omega
          subst hi2
          simp at h
          subst h
          exact ⟨p, upd_same _ _ _, by rw [e_ix]; exact hb, upd_same _ _ _⟩
      · rw [upd_ne _ _ e2] at h
        exact key h
    · intro x h
      by_cases e : x = a
      · subst e; rw [upd_same] at h; cases h
      · rw [upd_ne _ _ e] at h
        rw [e_hidx, upd_ne _ _ e]; exact r.out x h
    · intro i x h
      rw [e_nb, e_bk] at h
      rw [e_ass]
      by_cases e2 : st.nb - 2 = b
      · rw [← e2, upd_same] at h
        rw [if_pos e2.symm]
        have hdf : d = false := by
          cases hd' : d with
          | false => rfl
          | true => exact absurd ((ixI_over hn).mp (by rw [hb, e2])) (hd hd')
        have hl := r.len hdf
        by_cases hi : i < (st.bk (st.nb - 2)).length
        · rw [List.getElem?_append_left hi] at h
          rw [List.getElem?_append_left (by omega)]
          have hx : x ≠ a := fun e => hnot _ i (by rw [← e]; exact h)
          rw [upd_ne _ _ hx]
          exact r.ass i x h
        · have hi2 : i = (st.bk (st.nb - 2)).length := by
            have := (List.getElem?_eq_some_iff.mp h).1
            simp at this; omega
          subst hi2
          simp at h
          subst h
          rw [upd_same, ← hl]; simp
      · rw [upd_ne _ _ e2] at h
        rw [if_neg (fun e => e2 e.symm)]
        have hx : x ≠ a := fun e => hnot _ i (by rw [← e]; exact h)
        rw [upd_ne _ _ hx]
        exact r.ass i x h
    · intro hdf
      have hl := r.len hdf
      rw [e_nb, e_bk, e_ass]
      by_cases e2 : st.nb - 2 = b
      · rw [if_pos e2.symm, ← e2, upd_same]
        simp [hl]
      · rw [if_neg (fun e => e2 e.symm), upd_ne _ _ e2]; exact hl
  by_cases hc : p < st.minP ∨ st.minP = INF
  · rw [if_pos hc]
    obtain ⟨st', h1, h2, h3⟩ := r1.recompute (b := b) (by rw [e_nb]; exact hbn) (fun b' hb' => by
      rw [e_bk, upd_ne _ _ (by omega)]
      refine r.bk_empty (fun x q hx hq => ?_)
      rcases r.min_spec with ⟨_, _, g⟩ | ⟨_, _, _, _, _, _, g⟩
      · rw [g x] at hx; cases hx
      · have g1 := g x q hx
        have g2 := r.le x q hx
        have : st.ixI p ≤ st.ixI q := by unfold ixI; split_ifs <;> omega
        omega)
    exact ⟨st', h1, h2, by rw [h3, e_nb]⟩
  · rw [if_neg hc]
    refine ⟨st1, rfl, ⟨r1.nb3, r1.le, r1.fwd, r1.bwd, r1.out, r1.ass, r1.len, ?_⟩, e_nb⟩
    have e_min : st1.minB = st.minB ∧ st1.minP = st.minP ∧ st1.minI = st.minI := by rw [← hst1]; exact ⟨rfl, rfl, rfl⟩
    obtain ⟨m1, m2, m3⟩ := e_min
    rcases r.min with ⟨h1, h2, h3⟩ | ⟨b0, h1, h2, h3, h4, h5⟩
    · exact absurd (.inr h2) hc
    · have hle : b0 ≤ b := by
        have : b0 = st.ixI st.minP := by
          rcases r.min_spec with ⟨g, _⟩ | ⟨b', _, g1, _, _, g2, _⟩
          · rw [h1] at g; cases g
          · rw [h1] at g1; cases g1; exact g2.symm
        have : st.ixI st.minP ≤ st.ixI p := by unfold ixI; split_ifs <;> omega
        omega
      have hlen : (st.bk b0).length ≤ (st1.bk b0).length ∧ st1.bk b0 ≠ [] := by
        rw [e_bk]
        by_cases e : b0 = b
        · subst e; rw [upd_same]; simp
        · rw [upd_ne _ _ e]; exact ⟨Nat.le_refl _, h4⟩
      refine .inr ⟨b0, by rw [m1]; exact h1, by rw [e_nb]; exact h2, fun b' hb' => ?_, hlen.2, ?_⟩
      · rw [e_bk, upd_ne _ _ (by omega)]; exact h3 b' hb'
      · rw [m2, m3, e_nb]
        rcases h5 with h5 | ⟨c1, c2, c3, c4, c5⟩ | h5
        · exact .inl h5
        · refine .inr (.inl ⟨c1, c2, Nat.lt_of_lt_of_le c3 hlen.1, ?_, fun i q hi hq => ?_⟩)
          · rw [e_ass]
            split_ifs
            · rw [List.getElem?_append_left (List.getElem?_eq_some_iff.mp c4).1]; exact c4
            · exact c4
          · by_cases hi2 : i < (st.bk b0).length
            · have hov := r.over_lt i (by rw [← c1]; exact hi2)
              obtain ⟨q', hq', _⟩ := hov
              have : st1.ass[i]? = st.ass[i]? := by
                rw [e_ass]
                split_ifs
                · rw [List.getElem?_append_left (List.getElem?_eq_some_iff.mp hq').1]
                · rfl
              rw [this] at hq
              exact c5 i q hi2 hq
            · have h6 : (st1.bk b0)[i]? = some (st1.bk b0)[i] := List.getElem?_eq_getElem hi
              have h7 := r1.ass i _ (by rw [e_nb, ← c1]; exact h6)
              rw [hq] at h7
              by_cases e : b0 = b
              · subst e
                have hx : (st1.bk b0)[i] = a := by
                  have : i = (st.bk b0).length := by
                    have h8 := hi
                    rw [e_bk, upd_same] at h8; simp at h8; omega
                  have h9 : (st1.bk b0)[i]? = some a := by rw [e_bk, upd_same, this]; simp
                  rw [List.getElem?_eq_getElem hi] at h9
                  simpa using h9
                rw [hx, upd_same] at h7
                cases h7
                omega
              · exfalso
                rw [e_bk, upd_ne _ _ e] at hi
                exact hi2 hi
        · exact .inr (.inr h5)

theorem rep_removeAt (r : Rep st m d) {a p : Nat} (ha : m a = some p) :
    ∃ st', st.removeAt a (st.ixI p) = .ok st' ∧ Rep st' (upd m a none) (d || decide (st.nb - 2 ≤ p ∧ p ≠ INF)) ∧ st'.nb = st.nb := by
  have hn := r.nb3
  obtain ⟨i, hi, hia⟩ := r.fwd a p ha
  unfold removeAt
  rw [hi]
  dsimp only
  generalize hb : st.ixI p = b at *
  have hbn : b < st.nb := by rw [← hb]; exact ixI_lt hn p
  have hil : i < (st.bk b).length := (List.getElem?_eq_some_iff.mp hia).1
  obtain ⟨y, hy⟩ : ∃ y, (st.bk b).getLast? = some y := by
    cases h : (st.bk b).getLast? with
    | none => rw [List.getLast?_eq_none_iff] at h; rw [h] at hil; simp at hil
    | some y => exact ⟨y, rfl⟩
  have hyl : (st.bk b)[(st.bk b).length - 1]? = some y := by rw [← List.getLast?_eq_getElem?]; exact hy
  rw [hy]
  dsimp only
  rw [if_neg (by omega)]
  generalize hn' : (st.bk b).length - 1 = n at *
  obtain ⟨ass', hass, hass2⟩ : ∃ ass', st.assAfter b i n = .ok ass' ∧ ((b = st.nb - 2 ∧ ∃ q, st.ass[n]? = some q ∧ ass' = st.ass.set i q) ∨ (b ≠ st.nb - 2 ∧ ass' = st.ass)) := by
    unfold assAfter
    by_cases c : b = st.nb - 2
    · rw [if_pos c]
      obtain ⟨q, hq, _⟩ := r.over_lt n (by rw [← c]; omega)
      rw [hq]
      exact ⟨_, rfl, .inl ⟨c, q, rfl, rfl⟩⟩
    · rw [if_neg c]; exact ⟨_, rfl, .inr ⟨c, rfl⟩⟩
  rw [hass]
  dsimp only
  generalize hl : ((st.bk b).set i y).dropLast = l
  -- elements of the new list
  have hlen : l.length = n := by rw [← hl]; simp; omega
  have hget : ∀ (j x : Nat), l[j]? = some x ↔ j < n ∧ ((j = i ∧ x = y) ∨ (j ≠ i ∧ (st.bk b)[j]? = some x)) := by
    intro j x
    by_cases hj : j < n
    · have : l[j]? = ((st.bk b).set i y)[j]? := by
        rw [← hl, List.getElem?_dropLast, if_pos (by simp; omega)]
      rw [this, List.getElem?_set]
      by_cases e : j = i
      · subst e
        rw [if_pos rfl, if_pos (by omega)]
        simp [hj, eq_comm]
      · rw [if_neg (fun h => e h.symm)]
        simp [hj, e]
    · have : l[j]? = none := List.getElem?_eq_none (by omega)
      rw [this]
      constructor
      · intro h; cases h
      · intro h; exact absurd h.1 hj
  obtain ⟨py, hpy, hpyb, hyidx⟩ := r.bwd b n y hyl
  have hinj : ∀ {j x : Nat}, (st.bk b)[j]? = some x → x = a → j = i := fun {j x} h e => by
    subst e
    obtain ⟨_, _, _, h3⟩ := r.bwd b j x h
    rw [hi] at h3; cases h3; rfl
  have hya : y = a ↔ i = n := ⟨fun e => (hinj hyl e).symm, fun e => by rw [e, hyl] at hia; cases hia; rfl⟩
  generalize hst1 : ({ st with bk := upd st.bk b l, ass := ass', hidx := upd (upd st.hidx y (some i)) a none } : Bucket) = st1
  have e_nb : st1.nb = st.nb := by rw [← hst1]
  have e_bk : st1.bk = upd st.bk b l := by rw [← hst1]
  have e_hidx : st1.hidx = upd (upd st.hidx y (some i)) a none := by rw [← hst1]
  have e_ass : st1.ass = ass' := by rw [← hst1]
  have e_ix : ∀ q, st1.ixI q = st.ixI q := fun q => by unfold ixI; rw [e_nb]
  have e_min : st1.minB = st.minB ∧ st1.minP = st.minP ∧ st1.minI = st.minI := by rw [← hst1]; exact ⟨rfl, rfl, rfl⟩
  have r1 : Rep' st1 (upd m a none) (d || decide (st.nb - 2 ≤ p ∧ p ≠ INF)) := by
    refine ⟨by rw [e_nb]; exact hn, ?_, ?_, ?_, ?_, ?_, ?_⟩
    · intro x q h
      by_cases e : x = a
      · subst e; rw [upd_same] at h; cases h
      · rw [upd_ne _ _ e] at h; exact r.le x q h
    · intro x q h
      rw [e_ix, e_hidx, e_bk]
      have e : x ≠ a := by rintro rfl; rw [upd_same] at h; cases h
      rw [upd_ne _ _ e] at h ⊢
      obtain ⟨j, j1, j2⟩ := r.fwd x q h
      by_cases e2 : st.ixI q = b
      · rw [e2, upd_same]
        rw [e2] at j2
        by_cases ey : x = y
        · subst ey
          refine ⟨i, upd_same _ _ _, (hget i x).mpr ⟨?_, .inl ⟨rfl, rfl⟩⟩⟩
          have : ¬ i = n := fun h => e (hya.mpr h)
          omega
        · refine ⟨j, by rw [upd_ne _ _ ey]; exact j1, (hget j x).mpr ⟨?_, .inr ⟨?_, j2⟩⟩⟩
          · have h1 := (List.getElem?_eq_some_iff.mp j2).1
            have : j ≠ n := by
              rintro rfl
              rw [hyl] at j2; cases j2; exact ey rfl
            omega
          · rintro rfl
            rw [hia] at j2; cases j2; exact e rfl
      · rw [upd_ne _ _ e2]
        have ey : x ≠ y := by
          rintro rfl
          rw [hpy] at h; cases h
          exact e2 hpyb
        exact ⟨j, by rw [upd_ne _ _ ey]; exact j1, j2⟩
    · intro b' j x h
      rw [e_bk] at h
      rw [e_hidx, ]
      by_cases e2 : b' = b
      · subst e2
        rw [upd_same] at h
        obtain ⟨h1, ⟨rfl, rfl⟩ | ⟨h2, h3⟩⟩ := (hget j x).mp h
        · have e : x ≠ a := fun e => by have := hya.mp e; omega
          exact ⟨py, by rw [upd_ne _ _ e]; exact hpy, by rw [e_ix]; exact hpyb, by rw [upd_ne _ _ e, upd_same]⟩
        · have e : x ≠ a := fun e => h2 (hinj h3 e)
          obtain ⟨q, q1, q2, q3⟩ := r.bwd b' j x h3
          have ey : x ≠ y := by
            rintro rfl
            rw [hyidx] at q3; cases q3; omega
          exact ⟨q, by rw [upd_ne _ _ e]; exact q1, by rw [e_ix]; exact q2, by rw [upd_ne _ _ e, upd_ne _ _ ey]; exact q3⟩
      · rw [upd_ne _ _ e2] at h
        obtain ⟨q, q1, q2, q3⟩ := r.bwd b' j x h
        have e : x ≠ a := by rintro rfl; rw [ha] at q1; cases q1; exact e2 (by omega)
        have ey : x ≠ y := by rintro rfl; rw [hpy] at q1; cases q1; exact e2 (by omega)
        exact ⟨q, by rw [upd_ne _ _ e]; exact q1, by rw [e_ix]; exact q2, by rw [upd_ne _ _ e, upd_ne _ _ ey]; exact q3⟩
    · intro x h
      rw [e_hidx]
      by_cases e : x = a
      · subst e; rw [upd_same]
      · rw [upd_ne _ _ e] at h ⊢
        have ey : x ≠ y := by rintro rfl; rw [hpy] at h; cases h
        rw [upd_ne _ _ ey]; exact r.out x h
    · intro j x h
      rw [e_nb, e_bk] at h
      rw [e_ass]
      by_cases e2 : st.nb - 2 = b
      · rw [e2, upd_same] at h
        rcases hass2 with ⟨_, q, hq, rfl⟩ | ⟨c, _⟩
        · have hyq : q = py := by
            have := r.ass n y (by rw [e2]; exact hyl)
            rw [hq, hpy] at this; cases this; rfl
          obtain ⟨h1, h2⟩ := (hget j x).mp h
          rw [List.getElem?_set]
          rcases h2 with ⟨rfl, rfl⟩ | ⟨h2, h3⟩
          · have e : x ≠ a := fun e => by have := hya.mp e; omega
            rw [if_pos rfl, upd_ne _ _ e, hpy, hyq]
            have : n < st.ass.length := (List.getElem?_eq_some_iff.mp hq).1
            rw [if_pos (by omega)]
          · rw [if_neg (fun h => h2 h.symm)]
            have e : x ≠ a := fun e => h2 (hinj h3 e)
            rw [upd_ne _ _ e]
            exact r.ass j x (by rw [e2]; exact h3)
        · exact absurd e2.symm c
      · rw [upd_ne _ _ e2] at h
        rcases hass2 with ⟨c, _⟩ | ⟨_, rfl⟩
        · exact absurd c.symm e2
        · have e : x ≠ a := by
            rintro rfl
            obtain ⟨q, q1, q2, _⟩ := r.bwd _ _ _ h
            rw [ha] at q1; cases q1; omega
          rw [upd_ne _ _ e]
          exact r.ass j x h
    · intro hdf
      rw [Bool.or_eq_false_iff, decide_eq_false_iff_not] at hdf
      have e2 : b ≠ st.nb - 2 := fun e => hdf.2 ((ixI_over hn).mp (by rw [hb]; exact e))
      rcases hass2 with ⟨c, _⟩ | ⟨_, e3⟩
      · exact absurd c e2
      · rw [e_nb, e_bk, e_ass, upd_ne _ _ (fun h => e2 h.symm), e3]
        exact r.len hdf.1
  obtain ⟨m1, m2, m3⟩ := e_min
  by_cases hc : st.minB = some b ∧ (l = [] ∨ b = st.nb - 2)
  · rw [if_pos hc]
    obtain ⟨st', h1, h2, h3⟩ := r1.recompute (b := b) (by rw [e_nb]; exact hbn) (fun b' hb' => by
      rw [e_bk, upd_ne _ _ (by omega)]
      rcases r.min with ⟨g, _⟩ | ⟨b0, g1, _, g2, _⟩
      · rw [hc.1] at g; cases g
      · rw [hc.1] at g1; cases g1; exact g2 b' hb')
    exact ⟨st', h1, h2, by rw [h3, e_nb]⟩
  · rw [if_neg hc]
    refine ⟨st1, rfl, ⟨r1.nb3, r1.le, r1.fwd, r1.bwd, r1.out, r1.ass, r1.len, ?_⟩, e_nb⟩
    rcases r.min with ⟨h1, h2, h3⟩ | ⟨b0, h1, h2, h3, h4, h5⟩
    · have := h3 b hbn
      rw [this] at hil; simp at hil
    · have hb0 : b0 ≤ b := by
        by_contra hlt
        have := h3 b (by omega)
        rw [this] at hil; simp at hil
      refine .inr ⟨b0, by rw [m1]; exact h1, by rw [e_nb]; exact h2, fun b' hb' => ?_, ?_, ?_⟩
      · rw [e_bk, upd_ne _ _ (by omega)]; exact h3 b' hb'
      · rw [e_bk]
        by_cases e : b0 = b
        · subst e
          rw [upd_same]
          intro h
          exact hc ⟨h1, .inl h⟩
        · rw [upd_ne _ _ e]; exact h4
      · rw [m2, m3, e_nb]
        rcases h5 with h5 | ⟨c1, c2, c3, c4, c5⟩ | h5
        · exact .inl h5
        · have e : b0 ≠ b := by
            intro e
            exact hc ⟨by rw [← e]; exact h1, .inr (by omega)⟩
          have e3 : ass' = st.ass := by
            rcases hass2 with ⟨c, _⟩ | ⟨_, e3⟩
            · omega
            · exact e3
          rw [e_bk, upd_ne _ _ e, e_ass, e3]
          exact .inr (.inl ⟨c1, c2, c3, c4, c5⟩)
        · exact .inr (.inr h5)

end Sbpl.Bucket
