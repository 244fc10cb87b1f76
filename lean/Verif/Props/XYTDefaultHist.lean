import Verif.Props.XYTDefault
import Verif.Props.XYTInit
import Verif.Props.XYTPath
import Verif.Props.XYTEx
/-!
# The (x, y, theta) lattice without motion primitives: histories, directions, and what it does not check
-/

namespace Sbpl.XDflProps
open Sbpl XSpec XEnv XCfg XDfl UtilsSpec XYTProps

variable {s : Setup} {vel tt : ℚ} {ops : List Op} {st : XEnv}

/-! ## Histories -/

/-- **C179** `Hist` for the environment with these primitives is exactly: initialisation without primitives, then the calls.  Everything proved about histories of environments with primitives
(C49 – C58, C177, ...) holds for environments initialised without primitives. -/
theorem default_hist (h1 : 1 ≤ s.T) (h2 : s.T ≤ 128) :
    Hist (setup s vel tt) ops st ↔ (∀ op ∈ ops, CallOk s op) ∧ ∃ st0, XDfl.init s vel tt = .ok st0 ∧ st0.run ops = some st := by
  unfold Hist
  rw [default_init]
  have e : ∀ op, CallOk (setup s vel tt) op ↔ CallOk s op := fun op => Iff.rfl
  constructor
  · rintro ⟨-, a, b⟩; exact ⟨fun op ho => (e op).mp (a op ho), b⟩
  · rintro ⟨a, b⟩; exact ⟨setup_ok h1 h2, fun op ho => (e op).mpr (a op ho), b⟩

theorem precompute_total {T : Nat} {cs : ℚ} {foot : ℚ × ℚ × ℚ → List (Int × Int)} (h1 : 1 ≤ T) (h2 : T ≤ 128) : ∃ r, XDfl.precompute T cs vel tt foot = .ok r := by
  unfold XDfl.precompute
  rw [if_neg]
  · exact ⟨_, rfl⟩
  · rw [Bool.not_eq_true, List.any_eq_false]
    intro a ha
    unfold allActs at ha
    rw [List.mem_flatMap] at ha
    obtain ⟨t, ht, ha⟩ := ha
    rw [List.mem_range] at ht
    unfold XDfl.acts at ha
    rw [if_pos (by omega), List.mem_map] at ha
    obtain ⟨i, -, rfl⟩ := ha
    have := end_range (T := T) h1 (t := (t : Int)) (by omega) (by omega) i
    simp only [decide_eq_true_eq]
    unfold predIdx XDfl.act
    dsimp only
    rw [toChar_id (by omega) (by omega)]
    split_ifs <;> omega

/-- **C179** With at most 128 headings the initialisation succeeds exactly when start and goal are states. -/
theorem default_init_total (h2 : s.T ≤ 128) : (∃ st, XDfl.init s vel tt = .ok st) ↔ InRange s s.start ∧ InRange s s.goal := by
  constructor
  · rintro ⟨st, h⟩
    unfold XDfl.init at h
    split_ifs at h with a b
    try rw [not_not] at a b
    exact ⟨⟨⟨a.1, a.2.1, a.2.2.1, a.2.2.2.1⟩, a.2.2.2.2⟩, ⟨⟨b.1, b.2.1, b.2.2.1, b.2.2.2.1⟩, b.2.2.2.2⟩⟩
  · rintro ⟨hs, hg⟩
    have h1 : 1 ≤ s.T := by have := hs.2; omega
    obtain ⟨r, hr⟩ := precompute_total (T := s.T) (cs := s.cs) (foot := s.foot) (vel := vel) (tt := tt) h1 h2
    rw [default_init]
    refine XInitProps.init_of_precompute (s := setup s vel tt) hs hg (r := r) ?_
    show XEnv.precompute s.T s.cs s.foot (prims s.T s.cs vel tt) = _
    rw [precompute_eq (by omega)]
    exact hr

/-! ## Transitions -/

theorem edge_primsOf {s : Setup} {grid : Int → Int → Nat} {m : MPrim} {p q : XKey} {c : Nat} (e : Edge s grid m p q c) : ∃ i : Nat, (primsOf s p.2.2)[i]? = some m := by
  have hm : m ∈ primsOf s p.2.2 := by
    unfold primsOf; rw [List.mem_filter, decide_eq_true_iff]; exact ⟨e.mem, e.heading⟩
  obtain ⟨i, hi, h⟩ := List.mem_iff_getElem.mp hm
  exact ⟨i, by rw [List.getElem?_eq_getElem hi, h]⟩

/-- **C180** GetSuccs of a state other than the goal, after any history on a lattice without primitives: the states and costs reported are exactly those of the moves `DEdge`. -/
theorem default_succs (h1 : 2 ≤ s.T) (h : Hist (setup s vel tt) ops st) {id : Nat} {p : XKey} (hp : st.getCoord id = .ok p) (hg : id ≠ st.goalId) :
    ∃ st' l, st.getSuccs id = .ok (st', l) ∧ st'.cfg = st.cfg ∧
      ∀ q c, (∃ j a, (j, c, a) ∈ l ∧ st'.getCoord j = .ok q) ↔ DEdge s vel tt (costs s ops) p q c := by
  obtain ⟨st', l, e1, e2, -, -, ex, -, hin⟩ := succs_exact h hp hg
  refine ⟨st', l, e1, e2, fun q c => ?_⟩
  rw [← default_edge h1 h.1.1]
  have ec : costs (setup s vel tt) ops = costs s ops := rfl
  constructor
  · rintro ⟨j, a, hj, hq⟩
    obtain ⟨hlt, -⟩ := hin _ hj
    exact ⟨_, (ex a.aind _ q c (List.getElem?_eq_getElem hlt)).mp ⟨j, a, hj, rfl, hq⟩⟩
  · rintro ⟨m, e⟩
    obtain ⟨i, hi⟩ := edge_primsOf e
    obtain ⟨j, a, hj, -, hq⟩ := (ex i m q c hi).mpr e
    exact ⟨j, a, hj, hq⟩

/-- **C180** GetPreds of any state: exactly the moves `DEdge` that lead to it. -/
theorem default_preds (h1 : 2 ≤ s.T) (h : Hist (setup s vel tt) ops st) {id : Nat} {q : XKey} (hq : st.getCoord id = .ok q) :
    ∃ st' l, st.getPreds id = .ok (st', l) ∧ st'.cfg = st.cfg ∧
      ∀ p c, (∃ j a, (j, c, a) ∈ l ∧ st'.getCoord j = .ok p) ↔ DEdge s vel tt (costs s ops) p q c := by
  obtain ⟨st', l, e1, e2, -, -, ex, hin⟩ := preds_exact h hq
  refine ⟨st', l, e1, e2, fun p c => ?_⟩
  rw [← default_edge h1 h.1.1]
  constructor
  · rintro ⟨j, a, hj, hp⟩
    obtain ⟨p', hp', hr, hlt⟩ := hin _ hj
    have hpp : p' = p := by
      have : Except.ok (ε := XErr) p' = .ok p := by rw [← hp', ← hp]
      cases this; rfl
    subst hpp
    exact ⟨_, (ex a.aind _ p' c hr.2.1 hr.2.2 (List.getElem?_eq_getElem hlt)).mp ⟨j, a, hj, rfl, hp'⟩⟩
  · rintro ⟨m, e⟩
    obtain ⟨i, hi⟩ := edge_primsOf e
    have hr := ((default_edge h1 h.1.1).mp ⟨m, e⟩).src.1
    obtain ⟨j, a, hj, -, hp⟩ := (ex i m p c hr.2.1 hr.2.2 hi).mpr e
    exact ⟨j, a, hj, hp⟩

end Sbpl.XDflProps
