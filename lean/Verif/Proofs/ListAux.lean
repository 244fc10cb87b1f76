/-! List lemmas. -/

namespace Sbpl

theorem nodup_len_le {α : Type} [DecidableEq α] {L R : List α} (nd : L.Nodup) (h : ∀ x ∈ L, x ∈ R) : L.length ≤ R.length := by
  induction L generalizing R with
  | nil => simp
  | cons a L ih =>
    have ha := h a (by simp)
    obtain ⟨n1, n2⟩ := List.nodup_cons.mp nd
    have := ih (R := R.erase a) n2 (by
      intro x hx
      have : x ≠ a := by rintro rfl; exact n1 hx
      exact (List.mem_erase_of_ne this).mpr (h x (by simp [hx])))
    rw [List.length_erase_of_mem ha] at this
    have := List.length_pos_of_mem ha
    simp only [List.length_cons]; omega

end Sbpl
