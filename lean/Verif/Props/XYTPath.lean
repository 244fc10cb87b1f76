import Verif.Model.XYTPath
import Verif.Spec.XYTPath
import Verif.Props.XYTMore
import Mathlib.Tactic.Linarith
import Mathlib.Tactic.Ring
/-!
# (x, y, theta) lattice environment: paths converted to poses (C135, C136)
-/

namespace Sbpl.XYTPathProps
open XEnv XSpec StateTable XCfg XYTProps

variable {s : Setup} {ops : List Op} {st : XEnv}

/-! ## C135: which poses -/

theorem succs_hist (h : Hist s ops st) {a : Nat} {st1 : XEnv} {r : List (Nat × Nat × XAct)} (h1 : st.getSuccs a = .ok (st1, r)) :
    Hist s (ops ++ [.getSuccs a]) st1 ∧ costs s (ops ++ [.getSuccs a]) = costs s ops ∧
      ∀ i k, st.getCoord i = .ok k → st1.getCoord i = .ok k := by
  have i := (hist_inv h).1
  obtain ⟨-, e1⟩ := succsBy_ext i (succAct_inRange i.stc) h1
  refine ⟨hist_append h (by simp [CallOk]) ?_, ?_, fun i k hk => getCoord_ok.mpr (coord_prefix e1.pre (getCoord_ok.mp hk))⟩
  · simp [run, step, h1]
  · simp [costs, costStep]

theorem piece_eq (k : XKey) {a : XAct} {m : MPrim} (hm : (primsOf s k.2.2)[a.aind]? = some m) :
    piece s s.cs k a = m.pts.dropLast.map (placed s k) := by
  unfold piece intermPts
  unfold primsOf at hm
  rw [hm]
  dsimp only
  apply List.map_congr_left
  intro p _
  unfold placed centreOf Utils.discXY2Cont
  simp only [Prod.mk.injEq, and_true]
  constructor <;> ring

/-- **C135** ConvertStateIDPathintoXYThetaPath, after any history: for each transition the result has, in order, the poses of a cheapest primitive that is valid for this transition with the
current costs of the cells, translated to the centre of the cell of its source, all but the last. -/
theorem convert_exact (h : Hist s ops st) {l : List Nat} {ks : List XKey} (hl : l.map (fun i => st.getCoord i) = ks.map .ok) {st' : XEnv}
    {poses : List (ℚ × ℚ × ℚ)} (hr : convertPath s st l = .ok (st', poses)) : Follows s (costs s ops) ks poses := by
  induction l generalizing ops st ks poses with
  | nil =>
    cases ks with
    | nil => simp only [convertPath] at hr; cases hr; exact .nil
    | cons _ _ => simp at hl
  | cons a l ih =>
    cases ks with
    | nil => simp at hl
    | cons p ks =>
    simp only [List.map_cons, List.cons.injEq] at hl
    obtain ⟨hp, hl⟩ := hl
    cases l with
    | nil =>
      cases ks with
      | nil => simp only [convertPath] at hr; cases hr; exact .single p
      | cons _ _ => simp at hl
    | cons b l =>
    cases ks with
    | nil => simp at hl
    | cons q ks =>
    have hq : st.getCoord b = .ok q := by simp only [List.map_cons, List.cons.injEq] at hl; exact hl.1
    simp only [convertPath] at hr
    rcases h1 : st.getSuccs a with e | ⟨st1, r⟩
    · rw [h1] at hr; cases hr
    rw [h1] at hr
    dsimp only at hr
    obtain ⟨h', hcost, hpre⟩ := succs_hist h h1
    rcases hpk : pick b r with _ | e
    · rw [hpk] at hr; cases hr
    rw [hpk, hpre a p hp] at hr
    dsimp only at hr
    rcases h2 : convertPath s st1 (b :: l) with er | ⟨st2, ps⟩
    · rw [h2] at hr; cases hr
    rw [h2] at hr
    dsimp only at hr
    cases hr
    have i := (hist_inv h).1
    have hb := (pick_spec b (succs_cost_lt i h1)).1 e hpk
    have hg : a ≠ st.goalId := by
      rintro rfl
      rw [(goal_absorbing st).1] at h1
      cases h1
      cases hb.1
    obtain ⟨st1', r', h1', -, -, -, hex, -, hin⟩ := succs_exact h hp hg
    rw [h1] at h1'
    cases h1'
    have ih' := ih h' (ks := q :: ks) (by
      have := hl
      have key : ∀ (l : List Nat) (ks : List XKey), l.map (fun i => st.getCoord i) = ks.map .ok → l.map (fun i => st1.getCoord i) = ks.map .ok := by
        intro l
        induction l with
        | nil => intro ks h; cases ks with | nil => rfl | cons _ _ => simp at h
        | cons x l ihl =>
          intro ks h
          cases ks with
          | nil => simp at h
          | cons k ks =>
            simp only [List.map_cons, List.cons.injEq] at h ⊢
            exact ⟨hpre x k h.1, ihl ks h.2⟩
      exact key _ _ hl) h2
    rw [hcost] at ih'
    obtain ⟨hlt, -, -⟩ := hin e hb.1
    have hm : (primsOf s p.2.2)[e.2.2.aind]? = some (primsOf s p.2.2)[e.2.2.aind] := List.getElem?_eq_getElem hlt
    have hbq : st1.getCoord b = .ok q := hpre b q hq
    have edge := (hex e.2.2.aind _ q e.2.1 hm).mp ⟨b, e.2.2, by
      have : (b, e.2.1, e.2.2) = e := by rw [← hb.2.1]
      rw [this]; exact hb.1, rfl, hbq⟩
    have hcs : st1.cfg.cs = s.cs := (hist_inv h').1.stc.cs
    rw [hcs, piece_eq p hm]
    refine .cons _ _ edge ?_ ih'
    intro m' c' e'
    have hm' : m' ∈ primsOf s p.2.2 := by
      unfold primsOf; rw [List.mem_filter, decide_eq_true_iff]; exact ⟨e'.mem, e'.heading⟩
    obtain ⟨n, hn, hmn⟩ := List.mem_iff_getElem.mp hm'
    have hm2 : (primsOf s p.2.2)[n]? = some m' := by rw [List.getElem?_eq_getElem hn, hmn]
    obtain ⟨j, a', hj, -, hjq⟩ := (hex n m' q c' hm2).mpr e'
    have : j = b := ids_injective h' hjq hbq
    subst this
    exact hb.2.2 _ hj rfl

/-- the conversion succeeds when the actions of the path can be found, and fails in the same way -/
theorem convert_actions (h : Hist s ops st) {l : List Nat} (hl : ∀ id ∈ l, ∃ k, st.getCoord id = .ok k) :
    (∀ st', (∃ ps, convertPath s st l = .ok (st', ps)) ↔ ∃ as, st.pathActions l = .ok (st', as)) ∧
      ∀ e, convertPath s st l = .error e ↔ st.pathActions l = .error e := by
  induction l generalizing ops st with
  | nil => simp [convertPath, pathActions]
  | cons a l ih =>
    cases l with
    | nil => simp [convertPath, pathActions]
    | cons b l =>
      simp only [convertPath, pathActions]
      rcases h1 : st.getSuccs a with e | ⟨st1, r⟩
      · simp
      obtain ⟨h', -, hpre⟩ := succs_hist h h1
      obtain ⟨ih1, ih2⟩ := ih h' (fun id hid => by
        obtain ⟨k, hk⟩ := hl id (List.mem_cons_of_mem _ hid)
        exact ⟨k, hpre _ _ hk⟩)
      obtain ⟨p, hp⟩ := hl a (by simp)
      dsimp only
      rcases hpk : pick b r with _ | e
      · simp
      rw [hpre a p hp]
      dsimp only
      rcases h2 : convertPath s st1 (b :: l) with er | ⟨st2, ps⟩
      · rw [(ih2 er).mp h2]; simp
      · obtain ⟨as, has⟩ := (ih1 st2).mp ⟨ps, h2⟩
        rw [has]; simp

/-- **C135** The conversion of IDs in use succeeds exactly for the paths whose consecutive IDs are connected; otherwise it raises an exception. -/
theorem convert_total (h : Hist s ops st) {l : List Nat} (hl : ∀ id ∈ l, ∃ k, st.getCoord id = .ok k) :
    ((∃ st' ps, convertPath s st l = .ok (st', ps)) ↔ Connected st l) ∧ (¬ Connected st l → convertPath s st l = .error .noTransition) := by
  obtain ⟨c1, c2⟩ := convert_actions h hl
  obtain ⟨t1, t2⟩ := path_actions_total h hl
  refine ⟨?_, fun hn => (c2 _).mpr (t2 hn)⟩
  rw [← t1]
  constructor
  · rintro ⟨st', ps, h⟩; exact ⟨st', (c1 st').mp ⟨ps, h⟩⟩
  · rintro ⟨st', as, h⟩; exact ⟨st', (c1 st').mpr ⟨as, h⟩⟩

/-- a path of transitions that does not pass through the goal is connected -/
theorem connected_of_lpath (h : Hist s ops st) : ∀ {l : List Nat} {ks : List XKey} {n : Nat}, l.map (fun i => st.getCoord i) = ks.map .ok → LPath s (costs s ops) ks n →
    st.goalId ∉ l.dropLast → Connected st l := by
  intro l
  induction l with
  | nil => intros; unfold Connected; trivial
  | cons a l ih =>
    intro ks n hl hp hg
    cases l with
    | nil => unfold Connected; trivial
    | cons b l =>
      unfold Connected
      cases hp with
      | single p => simp at hl
      | @cons p q c n ks m e hp =>
        simp only [List.map_cons, List.cons.injEq] at hl
        obtain ⟨ha, hb, hl⟩ := hl
        rw [List.dropLast_cons_of_ne_nil (by simp)] at hg
        refine ⟨?_, ih (ks := q :: ks) (by simp only [List.map_cons, List.cons.injEq]; exact ⟨hb, hl⟩) hp (fun hn => hg (List.mem_cons_of_mem _ hn))⟩
        have hag : a ≠ st.goalId := fun e => hg (by rw [e]; simp)
        obtain ⟨st1, r, h1, -, -, -, hex, -, -⟩ := succs_exact h ha hag
        have hm : m ∈ primsOf s p.2.2 := by
          unfold primsOf; rw [List.mem_filter, decide_eq_true_iff]; exact ⟨e.mem, e.heading⟩
        obtain ⟨i, hi, hmi⟩ := List.mem_iff_getElem.mp hm
        have hm2 : (primsOf s p.2.2)[i]? = some m := by rw [List.getElem?_eq_getElem hi, hmi]
        obtain ⟨j, x, hj, -, hjq⟩ := (hex i m q c hm2).mpr e
        obtain ⟨h', -, hpre⟩ := succs_hist h h1
        have : j = b := ids_injective h' hjq (hpre b q hb)
        subst this
        exact ⟨st1, r, c, x, h1, hj⟩

/-- **C135** Every path of valid transitions can be converted, if it does not pass through the goal before its end (in particular the paths of the planners, see C58 and C59). -/
theorem convert_path_ok (h : Hist s ops st) {l : List Nat} {ks : List XKey} {n : Nat} (hl : l.map (fun i => st.getCoord i) = ks.map .ok)
    (hp : LPath s (costs s ops) ks n) (hg : st.goalId ∉ l.dropLast) : ∃ st' poses, convertPath s st l = .ok (st', poses) ∧ Follows s (costs s ops) ks poses := by
  have hc := connected_of_lpath h hl hp hg
  obtain ⟨st', ps, hr⟩ := (convert_total h (l := l) (by
    intro id hid
    have : st.getCoord id ∈ ks.map .ok := by rw [← hl]; exact List.mem_map.mpr ⟨id, hid, rfl⟩
    obtain ⟨k, -, hk⟩ := List.mem_map.mp this
    exact ⟨k, hk.symm⟩)).1.mpr hc
  exact ⟨st', ps, hr, convert_exact h hl hr⟩

/-! ## C136: safety and continuity of the poses -/

theorem cell_closed {x cell : ℚ} (hc : 0 < cell) : cell * Utils.contXY2Disc x cell ≤ x ∧ x ≤ cell * (Utils.contXY2Disc x cell + 1) := by
  have hx : x = cell * (x / cell) := by rw [mul_div_cancel₀ _ hc.ne']
  unfold Utils.contXY2Disc Utils.trunc
  by_cases h : 0 ≤ x
  · have h2 : 0 ≤ x / cell := div_nonneg h hc.le
    rw [if_pos h, if_pos h2]
    have a1 := Int.floor_le (x / cell)
    have a2 := (Int.lt_floor_add_one (x / cell)).le
    constructor
    · conv_rhs => rw [hx]
      exact mul_le_mul_of_nonneg_left a1 hc.le
    · conv_lhs => rw [hx]
      exact mul_le_mul_of_nonneg_left a2 hc.le
  · have h2 : ¬ 0 ≤ x / cell := by
      have := div_neg_of_neg_of_pos (not_le.mp h) hc
      linarith
    rw [if_neg h, if_neg h2]
    have a1 := Int.le_ceil (x / cell)
    have a2 := (Int.ceil_lt_add_one (x / cell)).le
    push_cast
    constructor
    · conv_rhs => rw [hx]
      exact mul_le_mul_of_nonneg_left (by linarith) hc.le
    · conv_lhs => rw [hx]
      exact mul_le_mul_of_nonneg_left (by linarith) hc.le

/-- **C136** Every pose of a converted path has its position in (the closed square of) a cell of the map whose current cost is below the inscribed threshold. -/
theorem follows_safe (hc : 0 < s.cs) {grid : Int → Int → Nat} {ks : List XKey} {poses : List (ℚ × ℚ × ℚ)} (h : Follows s grid ks poses) :
    ∀ r ∈ poses, ∃ z : Int × Int, InMap s z ∧ grid z.1 z.2 < s.inscr ∧ s.cs * z.1 ≤ r.1 ∧ r.1 ≤ s.cs * (z.1 + 1) ∧ s.cs * z.2 ≤ r.2.1 ∧ r.2.1 ≤ s.cs * (z.2 + 1) := by
  induction h with
  | nil => simp
  | single => simp
  | @cons p q l ps m c e hmin _ ih =>
    intro r hr
    rcases List.mem_append.mp hr with hr | hr
    · obtain ⟨x, hx, rfl⟩ := List.mem_map.mp hr
      have hx' := (List.dropLast_sublist _).subset hx
      set z : Int × Int := (Utils.contXY2Disc (x.1 + s.cs / 2) s.cs, Utils.contXY2Disc (x.2.1 + s.cs / 2) s.cs) with hz
      obtain ⟨e1, e2⟩ := e.centre z ⟨x, hx', rfl, rfl⟩
      obtain ⟨a1, a2⟩ := cell_closed (x := x.1 + s.cs / 2) hc
      obtain ⟨b1, b2⟩ := cell_closed (x := x.2.1 + s.cs / 2) hc
      refine ⟨shift p z, e1, e2, ?_⟩
      unfold placed centreOf shift
      rw [hz]
      push_cast
      refine ⟨?_, ?_, ?_, ?_⟩ <;> linarith
    · exact ih r hr

theorem steps_map {d : ℚ} {c : ℚ × ℚ} : ∀ {l : List (ℚ × ℚ × ℚ)}, StepsWithin d (l.map posOf) →
    StepsWithin d (l.map (fun r => (c.1 + r.1, c.2 + r.2.1))) := by
  intro l
  induction l with
  | nil => intro _; trivial
  | cons x l ih =>
    intro h
    cases l with
    | nil => trivial
    | cons y l =>
      obtain ⟨h1, h2, h3⟩ := h
      refine ⟨?_, ?_, ih h3⟩
      · have : c.1 + x.1 - (c.1 + y.1) = (posOf x).1 - (posOf y).1 := by unfold posOf; ring
        dsimp only; rw [this]; exact h1
      · have : c.2 + x.2.1 - (c.2 + y.2.1) = (posOf x).2 - (posOf y).2 := by unfold posOf; ring
        dsimp only; rw [this]; exact h2

/-- **C136** No jumps: if every primitive begins and ends at the centres of its cells and its consecutive poses are at most `d` apart, then so are the consecutive poses of the converted path
followed by the centre of the last cell; and the first of them is the centre of the first cell. -/
theorem follows_continuous (hx : Exact s) {d : ℚ} (hd : ∀ m ∈ s.prims, StepsWithin d (m.pts.map posOf)) {grid : Int → Int → Nat} {p q : XKey} {ks : List XKey}
    {poses : List (ℚ × ℚ × ℚ)} (h : Follows s grid ks poses) (hp : ks.head? = some p) (hq : ks.getLast? = some q) :
    StepsWithin d (poses.map posOf ++ [centreOf s q]) ∧ (poses.map posOf ++ [centreOf s q]).head? = some (centreOf s p) := by
  induction h generalizing p with
  | nil => simp at hp
  | single k =>
    simp only [List.head?_cons, Option.some.injEq] at hp
    simp only [List.getLast?_singleton, Option.some.injEq] at hq
    subst hp; subst hq
    exact ⟨trivial, rfl⟩
  | @cons k k' l ps m c e hmin _ ih =>
    simp only [List.head?_cons, Option.some.injEq] at hp
    subst hp
    rw [List.getLast?_cons_cons] at hq
    obtain ⟨ih1, ih2⟩ := ih rfl hq
    obtain ⟨⟨th, h1⟩, ⟨th', h2⟩, h3⟩ := hx m e.mem
    have hs := hd m e.mem
    obtain ⟨init, last, hpts⟩ : ∃ init last, m.pts = init ++ [last] := by
      refine ⟨m.pts.dropLast, m.pts.getLast (by rintro h; rw [h] at h3; simp at h3), ?_⟩
      rw [List.dropLast_append_getLast]
    have hlast : last = (s.cs * m.dX, s.cs * m.dY, th') := by
      rw [hpts, List.getLast?_append] at h2; simpa using h2
    have hne : init ≠ [] := by rintro rfl; rw [hpts] at h3; simp at h3
    rw [hpts, List.dropLast_concat, List.map_append, List.map_map, List.append_assoc]
    have hfun : (posOf ∘ placed s k) = fun r : ℚ × ℚ × ℚ => ((centreOf s k).1 + r.1, (centreOf s k).2 + r.2.1) := by
      funext r; rfl
    rw [hfun]
    have hs' := steps_map (c := centreOf s k) hs
    rw [hpts, List.map_append] at hs'
    have hend : ((centreOf s k).1 + last.1, (centreOf s k).2 + last.2.1) = centreOf s k' := by
      rw [hlast]
      unfold centreOf
      rw [e.endX, e.endY]
      push_cast
      rw [Prod.mk.injEq]
      constructor <;> ring
    rw [List.map_cons, List.map_nil, hend] at hs'
    have merge : ∀ (a : List (ℚ × ℚ)) (z : ℚ × ℚ) (b : List (ℚ × ℚ)), StepsWithin d (a ++ [z]) → b.head? = some z → StepsWithin d b → StepsWithin d (a ++ b) := by
      intro a
      induction a with
      | nil => intro z b _ _ hb; exact hb
      | cons x a iha =>
        intro z b h1 h2 h3
        cases a with
        | nil =>
          cases b with
          | nil => simp at h2
          | cons y b =>
            simp at h2; subst h2
            exact ⟨h1.1, h1.2.1, h3⟩
        | cons y a => exact ⟨h1.1, h1.2.1, iha z b h1.2.2 h2 h3⟩
    refine ⟨merge _ _ _ hs' ih2 ih1, ?_⟩
    cases init with
    | nil => exact absurd rfl hne
    | cons x init =>
      rw [hpts] at h1
      simp only [List.cons_append, List.head?_cons, Option.some.injEq] at h1
      rw [h1]
      simp

end Sbpl.XYTPathProps
