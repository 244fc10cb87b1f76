import Verif.Proofs.Nav2DGeom
/-!
# Properties of `EnvironmentNAV2D` (C14–C18, C30–C33)

`Hist W H map s g obs is16 ops st`: the environment was initialised with these arguments and the calls `ops` were made.
-/

namespace Sbpl.Nav2DProps
open Sbpl GridSpec StateTable Nav2D

/-- initialisation (8- or 16-connected) followed by calls -/
def Hist (W H : Int) (map : Int → Nat) (s g : Int × Int) (obs : Nat) (is16 : Bool) (ops : List NavOp) (st : Nav2D) : Prop :=
  ∃ st0, Nav2D.init W H map s g obs (if is16 then 16 else 8) = .ok st0 ∧ st0.run ops = some st

section
variable {W H : Int} {map : Int → Nat} {s g : Int × Int} {obs : Nat} {is16 : Bool} {ops : List NavOp} {st : Nav2D}

theorem Hist.inv (h : Hist W H map s g obs is16 ops st) :
    NInv st ∧ st.cfg.W = W ∧ st.cfg.H = H ∧ st.cfg.obs = obs ∧ st.cfg.dirs = dirsOf is16 := by
  obtain ⟨st0, h0, h1⟩ := h
  obtain ⟨i0, c0⟩ := init_inv h0
  obtain ⟨i1, sm⟩ := run_inv ops i0 h1
  refine ⟨i1, ?_, ?_, ?_, ?_⟩
  · rw [sm.W, c0]
  · rw [sm.H, c0]
  · rw [sm.obs, c0]
  · rw [sm.dirs, c0]; rfl

theorem getState_of_coord {st : Nav2D} (i : NInv st) {id : Nat} {k : Int × Int} (h : st.tab.coord id = some k) :
    st.getState k = (st, id) := by
  unfold getState
  rw [getId_of_coord i.tab h]

/-! ## C14: IDs -/

/-- **C14a** `GetStateFromCoord` returns an ID below `SizeofCreatedEnv`, which decodes to the cell at once and after any
further calls, and for which later look-ups of the cell return the same ID without creating a state. -/
theorem id_round_trip (h : Hist W H map s g obs is16 ops st) (k : Int × Int) (ops' : List NavOp) {st' : Nav2D}
    (h' : (st.getState k).1.run ops' = some st') :
    (st.getState k).2 < (st.getState k).1.tab.size ∧
    st'.getCoord (st.getState k).2 = .ok k ∧ st'.getState k = (st', (st.getState k).2) := by
  have i := h.inv.1
  have i1 : NInv (st.getState k).1 := i.ext (getState_ext st k) (getState_inv i.tab k)
  have hc := getState_coord i.tab k
  obtain ⟨i2, sm⟩ := run_inv ops' i1 h'
  have hc' := coord_prefix sm.pre hc
  exact ⟨coord_lt.mp (by rw [hc]; simp), getCoord_ok.mpr hc', getState_of_coord i2 hc'⟩

/-- **C14b** The IDs `0 .. SizeofCreatedEnv() - 1`, and no others, are in use; each is the ID of exactly one cell, and
different IDs are different cells. -/
theorem ids_dense_injective (h : Hist W H map s g obs is16 ops st) :
    (∀ id, id < st.tab.size ↔ ∃ k, st.getCoord id = .ok k) ∧
    (∀ id k, st.getCoord id = .ok k → st.getState k = (st, id)) ∧
    (∀ id id' k, st.getCoord id = .ok k → st.getCoord id' = .ok k → id = id') := by
  have i := h.inv.1
  refine ⟨?_, ?_, ?_⟩
  · intro id
    rw [← coord_lt]
    constructor
    · intro hn
      obtain ⟨k, hk⟩ := Option.ne_none_iff_exists'.mp hn
      exact ⟨k, getCoord_ok.mpr hk⟩
    · rintro ⟨k, hk⟩
      rw [getCoord_ok.mp hk]; simp
  · intro id k hk
    exact getState_of_coord i (getCoord_ok.mp hk)
  · intro id id' k hk hk'
    exact coord_inj i.tab (getCoord_ok.mp hk) (getCoord_ok.mp hk')

/-- **C14c** Start and goal IDs always decode to the start and goal cells last set. -/
theorem start_goal_ids (h : Hist W H map s g obs is16 ops st) :
    st.getCoord st.startId = .ok st.cfg.start ∧ st.getCoord st.goalId = .ok st.cfg.goal :=
  ⟨getCoord_ok.mpr h.inv.1.start, getCoord_ok.mpr h.inv.1.goal⟩

/-- the hash bin is always inside the table of 65536 bins -/
theorem hash_in_range (k : Int × Int) : Nav2D.hash k < 65536 := by
  unfold Nav2D.hash
  rw [UInt32.toNat_and]
  have : (65535 : UInt32).toNat = 65535 := rfl
  rw [this]
  exact Nat.lt_of_le_of_lt Nat.and_le_right (by omega)

/-! ## C15: successors -/

theorem mem_of_map_eq {st' : Nav2D} {l : List (Nat × Nat)} {r : List ((Int × Int) × Nat)}
    (hl : l.map (fun p => (st'.tab.coord p.1, p.2)) = r.map (fun p => (some p.1, p.2))) {k : Int × Int} {c : Nat} :
    (k, c) ∈ r ↔ ∃ i, (i, c) ∈ l ∧ st'.getCoord i = .ok k := by
  constructor
  · intro hm
    have : (some k, c) ∈ l.map (fun p => (st'.tab.coord p.1, p.2)) := by
      rw [hl]; exact List.mem_map.mpr ⟨(k, c), hm, rfl⟩
    obtain ⟨⟨i, c'⟩, hi, he⟩ := List.mem_map.mp this
    simp only [Prod.mk.injEq] at he
    obtain ⟨e1, rfl⟩ := he
    exact ⟨i, hi, getCoord_ok.mpr e1⟩
  · rintro ⟨i, hi, hk⟩
    have : (some k, c) ∈ r.map (fun p => (some p.1, p.2)) := by
      rw [← hl]
      exact List.mem_map.mpr ⟨(i, c), hi, by rw [getCoord_ok.mp hk]⟩
    obtain ⟨⟨k', c'⟩, hm, he⟩ := List.mem_map.mp this
    simp only [Prod.mk.injEq, Option.some.injEq] at he
    obtain ⟨rfl, rfl⟩ := he
    exact hm

theorem nodup_filterMap_fst {c : NavCfg} {f : Act → Option ((Int × Int) × Nat)} {x y : Int}
    (hf : ∀ a p, f a = some p → p.1 = (x + a.dx, y + a.dy)) : ((c.acts.filterMap f).map Prod.fst).Nodup := by
  have h := act_nodup c
  generalize c.acts = as at *
  induction as with
  | nil => simp
  | cons a as ih =>
    rw [List.map_cons, List.nodup_cons] at h
    rw [List.filterMap_cons]
    cases q : f a with
    | none => exact ih h.2
    | some p =>
      rw [List.map_cons, List.nodup_cons]
      refine ⟨?_, ih h.2⟩
      rw [List.mem_map]
      rintro ⟨p', hp', he⟩
      obtain ⟨b, hb, hq⟩ := List.mem_filterMap.mp hp'
      apply h.1
      rw [List.mem_map]
      refine ⟨b, hb, ?_⟩
      have e1 := hf a p q
      have e2 := hf b p' hq
      rw [he, e1, Prod.mk.injEq] at e2
      exact Prod.ext (by show b.dx = a.dx; omega) (by show b.dy = a.dy; omega)

theorem nodup_of_coords {st' : Nav2D} {l : List (Nat × Nat)} {r : List ((Int × Int) × Nat)}
    (hl : l.map (fun p => (st'.tab.coord p.1, p.2)) = r.map (fun p => (some p.1, p.2)))
    (hr : (r.map Prod.fst).Nodup) : (l.map Prod.fst).Nodup := by
  have : ((l.map Prod.fst).map st'.tab.coord) = (r.map Prod.fst).map some := by
    have := congrArg (List.map Prod.fst) hl
    rw [List.map_map, List.map_map] at this
    rw [List.map_map, List.map_map]
    exact this
  have hn : ((l.map Prod.fst).map st'.tab.coord).Nodup := by
    rw [this]
    exact List.Pairwise.map some (fun a b hab he => hab (Option.some.inj he)) hr
  exact List.Pairwise.of_map _ (fun a b hab he => hab (by rw [he])) hn

theorem succG_fst {c : NavCfg} {x y : Int} : ∀ a p, c.succG x y a = some p → p.1 = (x + a.dx, y + a.dy) := by
  intro a p h
  unfold NavCfg.succG at h
  split at h
  · cases h; rfl
  · cases h

theorem predG_fst {c : NavCfg} {x y : Int} : ∀ a p, c.predG x y a = some p → p.1 = (x + a.dx, y + a.dy) := by
  intro a p h
  unfold NavCfg.predG at h
  split at h
  · cases h; rfl
  · cases h

/-- **C15** `GetSuccs` of a state in the map that is not the goal never reads outside the map (no error), and returns
exactly the cells reachable by one passable straight move, each once and at the cost length * (1 + maximal cost of the
cells crossed).  The current costs `st.cfg.grid` are those of the map with all later `UpdateCost` calls applied. -/
theorem succs_exact (h : Hist W H map s g obs is16 ops st) {id : Nat} {p : Int × Int} (hid : id ≠ st.goalId)
    (hp : st.getCoord id = .ok p) (hin : InMap W H p.1 p.2) :
    ∃ st' l, st.getSuccs id = .ok (st', l) ∧ (l.map Prod.fst).Nodup ∧
      (∀ i c, (i, c) ∈ l → ∃ k, st'.getCoord i = .ok k) ∧
      ∀ k c, (∃ i, (i, c) ∈ l ∧ st'.getCoord i = .ok k) ↔ Edge W H st.cfg.grid obs is16 p k c := by
  obtain ⟨i, eW, eH, eo, ed⟩ := h.inv
  rw [← eW, ← eH, ← eo]
  rw [← eW, ← eH] at hin
  obtain ⟨st', l, h1, _, h3, h4⟩ := getSuccs_spec (x := p.1) (y := p.2) i hid (getCoord_ok.mp hp) hin
  refine ⟨st', l, h1, ?_, ?_, ?_⟩
  · exact nodup_of_coords h4 (nodup_filterMap_fst succG_fst)
  · intro j c hj
    have : (st'.tab.coord j, c) ∈ (st.cfg.acts.filterMap (st.cfg.succG p.1 p.2)).map (fun p => (some p.1, p.2)) := by
      rw [← h4]; exact List.mem_map.mpr ⟨(j, c), hj, rfl⟩
    obtain ⟨q, _, he⟩ := List.mem_map.mp this
    exact ⟨q.1, getCoord_ok.mpr (Prod.mk.inj he).1.symm⟩
  · intro k c
    rw [← mem_of_map_eq h4]
    exact succG_edge ed hin

/-- **C15** the goal is absorbing -/
theorem succs_goal (h : Hist W H map s g obs is16 ops st) : st.getSuccs st.goalId = .ok (st, []) := by
  unfold getSuccs; rw [if_pos rfl]

/-- the costs seen after `UpdateCost(x, y, v)`: only that cell changes -/
theorem updateCost_grid (h : Hist W H map s g obs is16 ops st) {x y : Int} (hin : InMap W H x y) (v : Nat) :
    ∃ st', st.updateCost x y v = .ok st' ∧ st'.cfg.grid x y = v ∧
      ∀ x' y', ¬(x' = x ∧ y' = y) → st'.cfg.grid x' y' = st.cfg.grid x' y' := by
  obtain ⟨i, eW, eH, _, _⟩ := h.inv
  rw [← eW, ← eH] at hin
  unfold updateCost
  rw [NavCfg.cell_ok hin]
  exact ⟨_, rfl, by simp, fun x' y' hn => by simp [hn]⟩

/-! ## C16: predecessors -/

/-- **C16** `GetPreds` never reads outside the map for states in the map, and lists exactly the edges that `GetSuccs`
lists, for source states `a` in the map that are neither the goal nor inside an obstacle. -/
theorem preds_dual (h : Hist W H map s g obs is16 ops st) {a b : Nat} {p q : Int × Int}
    (ha : st.getCoord a = .ok p) (hb : st.getCoord b = .ok q) (hpin : InMap W H p.1 p.2) (hqin : InMap W H q.1 q.2)
    (hag : a ≠ st.goalId) (hfree : st.cfg.grid p.1 p.2 < obs) :
    ∃ st1 lp st2 ls, st.getPreds b = .ok (st1, lp) ∧ st.getSuccs a = .ok (st2, ls) ∧
      (lp.map Prod.fst).Nodup ∧ ∀ c, (a, c) ∈ lp ↔ (b, c) ∈ ls := by
  obtain ⟨i, eW, eH, eo, ed⟩ := h.inv
  rw [← eW, ← eH] at hpin hqin
  rw [← eo] at hfree
  have hac := getCoord_ok.mp ha
  have hbc := getCoord_ok.mp hb
  obtain ⟨st1, lp, h1, t1, e1, m1⟩ := getPreds_spec (x := q.1) (y := q.2) i hbc hqin
  obtain ⟨st2, ls, h2, t2, e2, m2⟩ := getSuccs_spec (x := p.1) (y := p.2) i hag hac hpin
  have d := fun cost => predG_dual ed hpin hqin (cost := cost)
  by_cases ho : st.cfg.grid q.1 q.2 ≥ st.cfg.obs
  · rw [if_pos ho] at m1
    have : lp = [] := by simpa using m1
    refine ⟨st1, lp, st2, ls, h1, h2, by rw [this]; simp, fun c => ?_⟩
    rw [this]
    refine ⟨fun hm => absurd hm (by simp), fun hm => ?_⟩
    have : (q, c) ∈ _ := (mem_of_map_eq m2).mpr ⟨b, hm, getCoord_ok.mpr (coord_prefix e2.pre hbc)⟩
    have := ((d c).mpr ⟨hfree, this⟩).1
    omega
  · rw [if_neg ho] at m1
    refine ⟨st1, lp, st2, ls, h1, h2, nodup_of_coords m1 (nodup_filterMap_fst predG_fst), fun c => ?_⟩
    have hac1 := getCoord_ok.mpr (coord_prefix e1.pre hac)
    have hbc2 := getCoord_ok.mpr (coord_prefix e2.pre hbc)
    constructor
    · intro hm
      have := ((d c).mp ⟨by omega, hfree, (mem_of_map_eq m1).mpr ⟨a, hm, hac1⟩⟩).2
      obtain ⟨j, hj, hk⟩ := (mem_of_map_eq m2).mp this
      rw [coord_inj t2 (coord_prefix e2.pre hbc) (getCoord_ok.mp hk)]; exact hj
    · intro hm
      have := ((d c).mpr ⟨hfree, (mem_of_map_eq m2).mpr ⟨b, hm, hbc2⟩⟩).2.2
      obtain ⟨j, hj, hk⟩ := (mem_of_map_eq m1).mp this
      rw [coord_inj t1 (coord_prefix e1.pre hac) (getCoord_ok.mp hk)]; exact hj

end

/-! ### Concrete cases -/

/-- a 4 × 3 map, obstacle threshold 3, cell (1, 1) has cost 2, cell (2, 1) is an obstacle -/
def exMap (i : Int) : Nat := if i = 5 then 2 else if i = 6 then 3 else 0

example : ∃ st, Hist 4 3 exMap (0, 0) (3, 2) 3 true [.getState 1 0, .getSuccs 0, .updateCost 0 1 1] st ∧
    0 ≠ st.goalId ∧ st.getCoord 0 = .ok (0, 0) ∧ InMap 4 3 0 0 ∧ st.cfg.grid 0 0 < 3 := by
  refine ⟨_, ⟨_, rfl, rfl⟩, ?_, rfl, ?_, ?_⟩ <;> (try unfold InMap) <;> decide +kernel

end Sbpl.Nav2DProps
