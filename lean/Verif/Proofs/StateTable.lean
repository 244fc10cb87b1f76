import Verif.Model.StateTable
/-! # Invariant of the coordinate ↔ ID tables -/

namespace Sbpl.StateTable
variable {κ : Type} [DecidableEq κ] {hash : κ → Nat} {t : StateTable κ} {k : κ}

/-- the tables are consistent with each other -/
structure TInv (hash : κ → Nat) (t : StateTable κ) : Prop where
  dense : ∀ (i : Nat) (e : HEntry κ), t.table[i]? = some e → e.id = i
  bins : ∀ b e, e ∈ t.bins b ↔ e ∈ t.table ∧ hash e.coord = b
  uniq : ∀ e ∈ t.table, ∀ e' ∈ t.table, e.coord = e'.coord → e = e'

theorem inv_empty : TInv hash (empty : StateTable κ) := by
  refine ⟨?_, ?_, ?_⟩ <;> simp [empty]

theorem find_some (h : TInv hash t) {e : HEntry κ} (hf : t.find hash k = some e) : e ∈ t.table ∧ e.coord = k := by
  unfold find at hf
  have h1 := List.mem_of_find?_eq_some hf
  have h2 := List.find?_some hf
  exact ⟨((h.bins _ _).mp h1).1, of_decide_eq_true h2⟩

theorem find_none (h : TInv hash t) (hf : t.find hash k = none) : ∀ e ∈ t.table, e.coord ≠ k := by
  intro e he hk
  unfold find at hf
  rw [List.find?_eq_none] at hf
  exact hf e ((h.bins _ _).mpr ⟨he, by rw [hk]⟩) (decide_eq_true hk)

theorem find_of_mem (h : TInv hash t) {e : HEntry κ} (he : e ∈ t.table) : t.find hash e.coord = some e := by
  cases hf : t.find hash e.coord with
  | none => exact absurd rfl (find_none h hf e he)
  | some e' =>
    have := find_some h hf
    rw [h.uniq e' this.1 e he this.2]

theorem inv_create (h : TInv hash t) (hn : ∀ e ∈ t.table, e.coord ≠ k) : TInv hash (t.create hash k).1 := by
  refine ⟨?_, ?_, ?_⟩
  · intro i e hi
    simp only [create] at hi
    by_cases hl : i < t.table.length
    · rw [List.getElem?_append_left hl] at hi; exact h.dense i e hi
    · rw [List.getElem?_append_right (Nat.le_of_not_lt hl)] at hi
      have : i - t.table.length = 0 := by
        rcases Nat.eq_zero_or_pos (i - t.table.length) with q | q
        · exact q
        · rw [List.getElem?_eq_none (by show 1 ≤ _; omega)] at hi; cases hi
      rw [this] at hi
      simp at hi
      rw [← hi]; simp; omega
  · intro b e
    simp only [create, upd]
    by_cases hb : b = hash k
    · subst hb
      rw [if_pos rfl, List.mem_append, List.mem_append, h.bins]
      constructor
      · rintro (⟨a, q⟩ | a)
        · exact ⟨.inl a, q⟩
        · rw [List.mem_singleton] at a; subst a; exact ⟨.inr (List.mem_singleton.mpr rfl), rfl⟩
      · rintro ⟨a | a, q⟩
        · exact .inl ⟨a, q⟩
        · exact .inr a
    · rw [if_neg hb, h.bins, List.mem_append]
      constructor
      · rintro ⟨a, q⟩; exact ⟨.inl a, q⟩
      · rintro ⟨a | a, q⟩
        · exact ⟨a, q⟩
        · rw [List.mem_singleton] at a; subst a; exact absurd q.symm hb
  · intro e he e' he' hc
    simp only [create, List.mem_append, List.mem_singleton] at he he'
    rcases he with he | he <;> rcases he' with he' | he'
    · exact h.uniq e he e' he' hc
    · subst he'; exact absurd hc (hn e he)
    · subst he; exact absurd hc.symm (hn e' he')
    · rw [he, he']

theorem inv_getId (h : TInv hash t) (k : κ) : TInv hash (t.getId hash k).1 := by
  unfold getId
  cases hf : t.find hash k with
  | some e => exact h
  | none => exact inv_create h (find_none h hf)

/-- entries are never removed or changed -/
theorem getId_prefix (t : StateTable κ) (k : κ) : t.table <+: (t.getId hash k).1.table := by
  unfold getId
  cases t.find hash k with
  | some e => exact List.prefix_rfl
  | none => exact List.prefix_append ..

theorem coord_of_mem (h : TInv hash t) {e : HEntry κ} (he : e ∈ t.table) : t.coord e.id = some e.coord := by
  obtain ⟨i, hi⟩ := List.mem_iff_getElem?.mp he
  have := h.dense i e hi
  rw [this, coord, hi]; rfl

theorem getId_coord (h : TInv hash t) (k : κ) : (t.getId hash k).1.coord (t.getId hash k).2 = some k := by
  unfold getId
  cases hf : t.find hash k with
  | some e =>
    have := find_some h hf
    rw [← this.2]; exact coord_of_mem h this.1
  | none =>
    simp [create, coord]

theorem coord_some {i : Nat} (h : TInv hash t) (hc : t.coord i = some k) :
    ∃ e ∈ t.table, e.coord = k ∧ e.id = i := by
  unfold coord at hc
  rw [Option.map_eq_some_iff] at hc
  obtain ⟨e, he, hk⟩ := hc
  exact ⟨e, List.mem_of_getElem? he, hk, h.dense i e he⟩

theorem coord_inj {i j : Nat} (h : TInv hash t) (hi : t.coord i = some k) (hj : t.coord j = some k) : i = j := by
  obtain ⟨e, he, hk, rfl⟩ := coord_some h hi
  obtain ⟨e', he', hk', rfl⟩ := coord_some h hj
  rw [h.uniq e he e' he' (hk.trans hk'.symm)]

theorem getId_of_coord {i : Nat} (h : TInv hash t) (hi : t.coord i = some k) : t.getId hash k = (t, i) := by
  obtain ⟨e, he, rfl, rfl⟩ := coord_some h hi
  unfold getId
  rw [find_of_mem h he]

theorem coord_prefix {t' : StateTable κ} (hp : t.table <+: t'.table) {i : Nat} (hi : t.coord i = some k) :
    t'.coord i = some k := by
  unfold coord at *
  obtain ⟨r, hr⟩ := hp
  rw [← hr]
  rw [Option.map_eq_some_iff] at *
  obtain ⟨e, he, hk⟩ := hi
  refine ⟨e, ?_, hk⟩
  have := (List.getElem?_eq_some_iff.mp he).1
  rw [List.getElem?_append_left this, he]

theorem coord_lt {i : Nat} : t.coord i ≠ none ↔ i < t.size := by
  unfold coord size
  rw [ne_eq, Option.map_eq_none_iff, List.getElem?_eq_none_iff]; omega

end Sbpl.StateTable
