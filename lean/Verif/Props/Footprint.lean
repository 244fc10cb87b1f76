import Verif.Proofs.Footprint
/-! # C61: the cells of a footprint -/

namespace Sbpl.FpProps
open Fp hiding Cell
open FpSpec

/-- What the cells of a footprint with vertices `ps` have to be. `border` are the cells of the outline. -/
structure Fills (ps : List Cell) (border cells : Cell → Prop) : Prop where
  /-- every side of the polygon is drawn without a gap: a chain of cells that have a side in common, none of them further than one cell from the side -/
  sides : ∀ p q, Edge ps p q → Joined (fun c => border c ∧ Near p q c) p q
  /-- nothing else is drawn -/
  thin : ∀ c, border c → ∃ p q, Edge ps p q ∧ Near p q c
  /-- the outline belongs to the footprint -/
  outline : ∀ c, border c → cells c
  /-- no cell outside of the bounding box -/
  box : ∀ c, cells c → InBox ps c
  /-- everything enclosed by the outline belongs to the footprint -/
  enclosed : ∀ c, InBox ps c → ¬ Escapes (InBox ps) border c → cells c

/-- **C61.** For every polygon (any number of vertices, any shape) and every initial content of the arrays of the search, `get_2d_footprint_cells` ends and adds a set of cells
that contains a gapless outline and all that it encloses. Unless the queue of the search was full, it contains nothing else. -/
theorem fill_encloses {ps : List Cell} (hne : ps ≠ []) (hs : Small ps) (d : Int) :
    ∃ (N : Nat) (r : Result) (border : Cell → Prop), (∀ fuel, N ≤ fuel → fill fuel d ps = some r) ∧ Fills ps border (fun c => c ∈ r.cells) ∧
      (r.full = false → ∀ c ∈ r.cells, ¬ Escapes (InBox ps) border c) := by
  obtain ⟨N, r, h1, h2, h3, h4, h5⟩ := fill_spec hne hs d
  refine ⟨N, r, fun c => c ∈ (plotted ps).map (sig (bounds ps)), h1, ⟨?_, ?_, h2, h3, h4⟩, h5⟩
  · intro p q h
    have j := plotAll_joined (tau_edge (b := bounds ps) h)
    have := j.map (f := sig (bounds ps)) (Q := fun c => c ∈ (plotted ps).map (sig (bounds ps)) ∧ Near p q c)
      (fun c hc => ⟨List.mem_map.mpr ⟨c, hc.1, rfl⟩, near_sig hc.2⟩) (fun _ _ h => side_sig h)
    rwa [sig_tau, sig_tau] at this
  · intro c hc
    obtain ⟨a, ha, rfl⟩ := List.mem_map.mp hc
    exact plotted_near ha

/-- **C61.** The same for a pose of the robot: the vertices are rotated, translated and rounded. -/
theorem footprint_encloses {polygon : List Pt} (h2 : 2 ≤ polygon.length) (x y cth sth res : ℚ) (d : Int)
    (hs : Small (polygon.map (fun p => (discVertex (cth * p.1 - sth * p.2 + x) res, discVertex (sth * p.1 + cth * p.2 + y) res)))) :
    ∃ (N : Nat) (r : Result) (border : Cell → Prop), (∀ fuel, N ≤ fuel → footprint fuel d polygon x y cth sth res = some r) ∧
      Fills (polygon.map (fun p => (discVertex (cth * p.1 - sth * p.2 + x) res, discVertex (sth * p.1 + cth * p.2 + y) res))) border (fun c => c ∈ r.cells) ∧
      (∀ p ∈ polygon, (discVertex (cth * p.1 - sth * p.2 + x) res, discVertex (sth * p.1 + cth * p.2 + y) res) ∈ r.cells) := by
  have hne : polygon.map (fun p => (discVertex (cth * p.1 - sth * p.2 + x) res, discVertex (sth * p.1 + cth * p.2 + y) res)) ≠ [] := by
    intro h; rw [List.map_eq_nil_iff] at h; rw [h] at h2; simp at h2
  obtain ⟨N, r, border, a, b, -⟩ := fill_encloses hne hs d
  refine ⟨N, r, border, ?_, b, ?_⟩
  · intro fuel hf
    unfold footprint
    rw [if_neg (by omega)]
    exact a fuel hf
  · intro p hp
    generalize hL : polygon.map (fun p => (discVertex (cth * p.1 - sth * p.2 + x) res, discVertex (sth * p.1 + cth * p.2 + y) res)) = L at *
    have hm : (discVertex (cth * p.1 - sth * p.2 + x) res, discVertex (sth * p.1 + cth * p.2 + y) res) ∈ L := by
      rw [← hL]; exact List.mem_map.mpr ⟨p, hp, rfl⟩
    refine b.enclosed _ ⟨⟨_, hm, Int.le_refl _⟩, ⟨_, hm, Int.le_refl _⟩, ⟨_, hm, Int.le_refl _⟩, ⟨_, hm, Int.le_refl _⟩⟩ ?_
    obtain ⟨q, hq⟩ : ∃ q, Edge L (discVertex (cth * p.1 - sth * p.2 + x) res, discVertex (sth * p.1 + cth * p.2 + y) res) q := edge_exists hm
    have bd : border (discVertex (cth * p.1 - sth * p.2 + x) res, discVertex (sth * p.1 + cth * p.2 + y) res) := by
      have := b.sides _ _ hq
      cases this with
      | refl h => exact h.1
      | step h => exact h.1
    intro he
    cases he with
    | out h => exact h ⟨⟨_, hm, Int.le_refl _⟩, ⟨_, hm, Int.le_refl _⟩, ⟨_, hm, Int.le_refl _⟩, ⟨_, hm, Int.le_refl _⟩⟩
    | step h => exact h bd

/-- **C61.** A polygon with at most one vertex is a point robot: exactly the cell of the position. -/
theorem point_robot {polygon : List Pt} (h : polygon.length ≤ 1) (fuel : Nat) (d : Int) (x y cth sth res : ℚ) :
    ∃ r, footprint fuel d polygon x y cth sth res = some r ∧ ∀ c, c ∈ r.cells ↔ c = (Utils.contXY2Disc x res, Utils.contXY2Disc y res) := by
  unfold footprint
  rw [if_pos h]
  exact ⟨_, rfl, fun c => by simp⟩

/-- **C61.** `get_2d_motion_cells`: exactly the cells of the later footprints that are not in the first one. -/
theorem motion_exact {fuel : Nat} {d : Int} {polygon : List Pt} {res : ℚ} {p : ℚ × ℚ × ℚ × ℚ} {ps : List (ℚ × ℚ × ℚ × ℚ)} {cells : List Cell}
    (h : motion fuel d polygon res (p :: ps) = some cells) :
    ∃ f : ℚ × ℚ × ℚ × ℚ → Result, (∀ q ∈ p :: ps, footprint fuel d polygon q.1 q.2.1 q.2.2.1 q.2.2.2 res = some (f q)) ∧
      ∀ c, c ∈ cells ↔ c ∉ (f p).cells ∧ ∃ q ∈ ps, c ∈ (f q).cells := by
  unfold motion at h
  dsimp only at h
  cases h1 : footprint fuel d polygon p.1 p.2.1 p.2.2.1 p.2.2.2 res with
  | none => rw [h1] at h; cases h
  | some first =>
    rw [h1] at h
    dsimp only at h
    cases h2 : ps.mapM (fun q => footprint fuel d polygon q.1 q.2.1 q.2.2.1 q.2.2.2 res) with
    | none => rw [h2] at h; cases h
    | some rs =>
      rw [h2] at h
      simp only [Option.some.injEq] at h
      subst h
      have key : ∀ (ps : List (ℚ × ℚ × ℚ × ℚ)) (rs : List Result), ps.mapM (fun q => footprint fuel d polygon q.1 q.2.1 q.2.2.1 q.2.2.2 res) = some rs →
          (∀ q ∈ ps, ∃ r ∈ rs, footprint fuel d polygon q.1 q.2.1 q.2.2.1 q.2.2.2 res = some r) ∧ (∀ r ∈ rs, ∃ q ∈ ps, footprint fuel d polygon q.1 q.2.1 q.2.2.1 q.2.2.2 res = some r) := by
        intro ps
        induction ps with
        | nil => intro rs h; simp at h; subst h; simp
        | cons a ps ih =>
          intro rs h
          rw [List.mapM_cons] at h
          cases ha : footprint fuel d polygon a.1 a.2.1 a.2.2.1 a.2.2.2 res with
          | none => rw [ha] at h; cases h
          | some ra =>
            rw [ha] at h
            cases hm : ps.mapM (fun q => footprint fuel d polygon q.1 q.2.1 q.2.2.1 q.2.2.2 res) with
            | none => rw [hm] at h; cases h
            | some rs' =>
              rw [hm] at h
              cases h
              obtain ⟨k1, k2⟩ := ih rs' hm
              constructor
              · intro q hq
                rcases List.mem_cons.mp hq with rfl | hq
                · exact ⟨ra, by simp, ha⟩
                · obtain ⟨r, hr, e⟩ := k1 q hq
                  exact ⟨r, by simp [hr], e⟩
              · intro r hr
                rcases List.mem_cons.mp hr with rfl | hr
                · exact ⟨a, by simp, ha⟩
                · obtain ⟨q, hq, e⟩ := k2 r hr
                  exact ⟨q, by simp [hq], e⟩
      obtain ⟨k1, k2⟩ := key ps rs h2
      refine ⟨fun q => (footprint fuel d polygon q.1 q.2.1 q.2.2.1 q.2.2.2 res).getD ⟨[], false⟩, ?_, ?_⟩
      · intro q hq
        rcases List.mem_cons.mp hq with rfl | hq
        · simp only [h1, Option.getD_some]
        · obtain ⟨r, -, e⟩ := k1 q hq
          simp only [e, Option.getD_some]
      · intro c
        simp only [List.mem_filter, List.mem_flatMap, decide_eq_true_iff, h1, Option.getD_some]
        constructor
        · rintro ⟨⟨r, hr, hc⟩, hn⟩
          refine ⟨hn, ?_⟩
          rcases List.mem_cons.mp hr with rfl | hr
          · exact absurd hc hn
          · obtain ⟨q, hq, e⟩ := k2 r hr
            exact ⟨q, hq, by rw [e]; exact hc⟩
        · rintro ⟨hn, q, hq, hc⟩
          obtain ⟨r, hr, e⟩ := k1 q hq
          rw [e] at hc
          exact ⟨⟨r, by simp [hr], hc⟩, hn⟩

end Sbpl.FpProps
