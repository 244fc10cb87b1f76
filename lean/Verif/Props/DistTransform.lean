import Verif.Proofs.DistTransform
/-! # C59: the distance transform -/

namespace Sbpl.DistProps
open Dist DistSpec

/-- **C59.** `computeDistancestoNonfreeAreas` is exact, on every map and for every threshold: `disttoObs` is the 8-connected distance (diagonal steps 1.414) to the nearest cell that is
an obstacle or outside of the map, and `disttoNonfree` the one to the nearest cell that is an obstacle, has a positive cost, or is outside. The previous contents of the
arrays do not matter. -/
theorem distances_exact (m : Map) (A : Arr × Arr) {x y : Int} (hin : Inside m.W m.H (x, y)) :
    IsNearest m.W m.H (fun o => m.obsthresh ≤ m.G o.1 o.2) (x, y) ((m.compute A).1 x y) ∧
    IsNearest m.W m.H (fun o => m.obsthresh ≤ m.G o.1 o.2 ∨ 0 < m.G o.1 o.2) (x, y) ((m.compute A).2 x y) := by
  obtain ⟨x0, x1, y0, y1⟩ := hin
  rw [compute_split]
  have h1 := values (m := m) (Z := m.isObs) A.1 x0 x1 y0 y1
  have h2 := values (m := m) (Z := m.isNon) A.2 x0 x1 y0 y1
  simp only [Map.isObs, Map.isNon, decide_eq_true_iff] at h1 h2
  exact ⟨h1, h2⟩

/-- the distance is determined by the specification -/
theorem nearest_unique {W H : Nat} {Z : Int × Int → Prop} {p : Int × Int} {v w : Nat} (h1 : IsNearest W H Z p v) (h2 : IsNearest W H Z p w) : v = w := by
  obtain ⟨⟨o, a, rfl⟩, b⟩ := h1
  obtain ⟨⟨o', a', rfl⟩, b'⟩ := h2
  exact Nat.le_antisymm (b _ a') (b' _ a)

/-- **C59.** The result does not depend on what was in the arrays before. -/
theorem distances_fresh (m : Map) (A B : Arr × Arr) {x y : Int} (hin : Inside m.W m.H (x, y)) :
    (m.compute A).1 x y = (m.compute B).1 x y ∧ (m.compute A).2 x y = (m.compute B).2 x y := by
  obtain ⟨a1, a2⟩ := distances_exact m A hin
  obtain ⟨b1, b2⟩ := distances_exact m B hin
  exact ⟨nearest_unique a1 b1, nearest_unique a2 b2⟩

/-- **C59.** Nothing outside of the map is written. -/
theorem outside_untouched (m : Map) (A : Arr × Arr) {x y : Int} (hout : ¬ Inside m.W m.H (x, y)) : (m.compute A).1 x y = A.1 x y ∧ (m.compute A).2 x y = A.2 x y := by
  by_cases hm : 0 < m.W ∧ 0 < m.H
  · have cell : ∀ x', (x' = x → y < 0 ∨ (m.H : Int) ≤ y) → ∀ Z A, m.dRow Z A x' x y = A x y ∧ m.uRow A x' x y = A x y := by
      intro x' hx Z A
      have c : x ≠ x' ∨ y < 0 ∨ (m.H : Int) ≤ y := by
        by_cases h : x = x'
        · exact .inr (hx h.symm)
        · exact .inl h
      exact ⟨(dRow_spec m Z hm A x').2 x y c, (uRow_spec m A x').2 x y c⟩
    have rows : ∀ x' : Int, 0 ≤ x' → x' < m.W → (x' = x → y < 0 ∨ (m.H : Int) ≤ y) := by
      rintro x' h0 h1 rfl
      unfold Inside at hout; omega
    have fold : ∀ (l : List Int), (∀ a ∈ l, 0 ≤ a ∧ a < m.W) → ∀ (f : Arr → Int → Arr), (∀ A (x' : Int), 0 ≤ x' → x' < m.W → f A x' x y = A x y) → ∀ A, l.foldl f A x y = A x y := by
      intro l hl f hf
      induction l with
      | nil => intro A; rfl
      | cons a l ih =>
        intro A
        rw [List.foldl_cons, ih (fun b hb => hl b (by simp [hb])) _]
        exact hf A a (hl a (by simp)).1 (hl a (by simp)).2
    have ma : ∀ a ∈ asc m.W, 0 ≤ a ∧ a < m.W := by
      intro a ha; unfold asc at ha; simp only [List.mem_map, List.mem_range] at ha; obtain ⟨k, hk, rfl⟩ := ha; omega
    have md : ∀ a ∈ desc m.W, 0 ≤ a ∧ a < m.W := by
      intro a ha; unfold desc at ha; simp only [List.mem_map, List.mem_range] at ha; obtain ⟨k, hk, rfl⟩ := ha; omega
    rw [compute_split]
    dsimp only
    rw [fold _ md _ (fun A x' h0 h1 => (cell x' (rows x' h0 h1) m.isObs A).2), fold _ ma _ (fun A x' h0 h1 => (cell x' (rows x' h0 h1) m.isObs A).1),
      fold _ md _ (fun A x' h0 h1 => (cell x' (rows x' h0 h1) m.isObs A).2), fold _ ma _ (fun A x' h0 h1 => (cell x' (rows x' h0 h1) m.isNon A).1)]
    exact ⟨rfl, rfl⟩
  · by_cases hw : m.W = 0
    · unfold Map.compute asc desc; rw [hw]; exact ⟨rfl, rfl⟩
    · have hh : m.H = 0 := by omega
      have d : ∀ A x, m.downRow A x = A := by intro A x; unfold Map.downRow asc desc; rw [hh]; simp
      have u : ∀ A x, m.upRow A x = A := by intro A x; unfold Map.upRow asc desc; rw [hh]; simp
      have f : ∀ (g : Arr × Arr → Int → Arr × Arr), (∀ A x, g A x = A) → ∀ (l : List Int) A, l.foldl g A = A := by
        intro g hg l
        induction l with
        | nil => intro A; rfl
        | cons a l ih => intro A; rw [List.foldl_cons, hg, ih]
      unfold Map.compute
      rw [f _ d, f _ u]; exact ⟨rfl, rfl⟩

/-- a map of 9 × 7 cells with an obstacle at (4, 4) and a cell of cost 1 at (3, 2) -/
def demo : Map := ⟨fun x y => if x = 4 ∧ y = 4 then 200 else if x = 3 ∧ y = 2 then 1 else 0, 9, 7, 100⟩

example : Inside demo.W demo.H (3, 3) ∧ (demo.compute (fun _ _ => 77, fun _ _ => 5)).1 3 3 = 1414 ∧ (demo.compute (fun _ _ => 77, fun _ _ => 5)).2 3 3 = 1000 ∧
    (demo.compute (fun _ _ => 77, fun _ _ => 5)).1 2 3 = 2414 ∧ (demo.compute (fun _ _ => 77, fun _ _ => 5)).1 1 3 = 2000 :=
  ⟨by unfold Inside demo; decide, by decide +kernel, by decide +kernel, by decide +kernel, by decide +kernel⟩

end Sbpl.DistProps
