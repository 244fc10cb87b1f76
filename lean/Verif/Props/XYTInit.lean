import Verif.Model.XYTInit
import Verif.Props.XYTFile
import Verif.Props.XYTDefault
import Verif.Props.Angles
/-!
# Parameters of environments, re-created environments, conversion of poses
-/

namespace Sbpl.XInitProps
open Sbpl XSpec XEnv XInit

/-! ### parameters -/

/-- the names of the three parameters with their initial values -/
def Known : List (String × Int) := [("cost_inscribed_thresh", 254), ("cost_possibly_circumscribed_thresh", -1), ("cost_obsthresh", 254)]

/-- the value of the last call for `name` with a value from 0 to 255, or the initial value `d` -/
def lastValue (name : String) (d : Int) (calls : List (String × Int)) : Int :=
  match (calls.filter (fun nv => decide (nv.1 = name ∧ 0 ≤ nv.2 ∧ nv.2 ≤ 255))).getLast? with
  | none => d
  | some nv => nv.2

theorem setParam_inited (p : XParams) (n : String) (v : Int) : (setParam p n v).1.inited = p.inited := by
  unfold setParam
  split_ifs <;> rfl

theorem setAll_append (p : XParams) (l : List (String × Int)) (nv : String × Int) : setAll p (l ++ [nv]) = (setParam (setAll p l) nv.1 nv.2).1 := by
  unfold setAll; rw [List.foldl_append]; rfl

theorem setAll_inited (l : List (String × Int)) : (setAll params0 l).inited = false := by
  induction l using List.reverseRecOn with
  | nil => rfl
  | append_singleton l nv ih => rw [setAll_append, setParam_inited]; exact ih

/-- a call succeeds if and only if the parameter exists and the value is from 0 to 255 and the environment is not initialised; otherwise it has no effect -/
theorem set_succeeds_iff (p : XParams) (n : String) (v : Int) :
    ((setParam p n v).2 = true ↔ p.inited = false ∧ (∃ d, (n, d) ∈ Known) ∧ 0 ≤ v ∧ v ≤ 255) ∧
    ((setParam p n v).2 = false → (setParam p n v).1 = p) := by
  have hk : (∃ d, (n, d) ∈ Known) ↔ n = "cost_inscribed_thresh" ∨ n = "cost_possibly_circumscribed_thresh" ∨ n = "cost_obsthresh" := by
    unfold Known
    simp only [List.mem_cons, Prod.mk.injEq, List.not_mem_nil, or_false]
    constructor
    · rintro ⟨d, h | h | h⟩
      · exact .inl h.1
      · exact .inr (.inl h.1)
      · exact .inr (.inr h.1)
    · rintro (h | h | h)
      · exact ⟨_, .inl ⟨h, rfl⟩⟩
      · exact ⟨_, .inr (.inl ⟨h, rfl⟩)⟩
      · exact ⟨_, .inr (.inr ⟨h, rfl⟩)⟩
  rw [hk]
  unfold setParam
  constructor
  · split_ifs with h1 h2 h3 h4 h5 h6 h7 <;> simp_all <;> omega
  · split_ifs <;> intro h <;> first | rfl | cases h

theorem getA (p : XParams) : getParam p "cost_inscribed_thresh" = some (p.inscr : Int) := by unfold getParam; rw [if_pos rfl]
theorem getB (p : XParams) : getParam p "cost_possibly_circumscribed_thresh" = some p.circ := by unfold getParam; rw [if_neg (by decide), if_pos rfl]
theorem getC (p : XParams) : getParam p "cost_obsthresh" = some (p.obs : Int) := by unfold getParam; rw [if_neg (by decide), if_neg (by decide), if_pos rfl]
theorem getD {n : String} (h1 : n ≠ "cost_inscribed_thresh") (h2 : n ≠ "cost_possibly_circumscribed_thresh") (h3 : n ≠ "cost_obsthresh") (p : XParams) : getParam p n = none := by
  unfold getParam; rw [if_neg h1, if_neg h2, if_neg h3]

theorem setA {p : XParams} (hp : p.inited = false) {v : Int} (hv : ¬ (v < 0 ∨ v > 255)) : setParam p "cost_inscribed_thresh" v = ({ p with inscr := v.toNat }, true) := by
  unfold setParam; rw [if_neg (by simp [hp]), if_pos rfl, if_neg hv]
theorem setB {p : XParams} (hp : p.inited = false) {v : Int} (hv : ¬ (v < 0 ∨ v > 255)) : setParam p "cost_possibly_circumscribed_thresh" v = ({ p with circ := v }, true) := by
  unfold setParam; rw [if_neg (by simp [hp]), if_neg (by decide), if_pos rfl, if_neg hv]
theorem setC {p : XParams} (hp : p.inited = false) {v : Int} (hv : ¬ (v < 0 ∨ v > 255)) : setParam p "cost_obsthresh" v = ({ p with obs := v.toNat }, true) := by
  unfold setParam; rw [if_neg (by simp [hp]), if_neg (by decide), if_neg (by decide), if_pos rfl, if_neg hv]

/-- one more call -/
theorem get_set (p : XParams) (hp : p.inited = false) (n m : String) (v : Int) :
    getParam (setParam p m v).1 n = if m = n ∧ 0 ≤ v ∧ v ≤ 255 ∧ (getParam p n).isSome then some v else getParam p n := by
  by_cases hv : v < 0 ∨ v > 255
  · have e : (setParam p m v).1 = p := by
      unfold setParam
      split_ifs <;> rfl
    rw [e, if_neg (by omega)]
  · have v0 : ((v.toNat : Nat) : Int) = v := by omega
    have v1 : 0 ≤ v ∧ v ≤ 255 := by omega
    by_cases n1 : n = "cost_inscribed_thresh"
    · subst n1
      by_cases m1 : m = "cost_inscribed_thresh"
      · subst m1
        rw [setA hp hv, getA, getA, if_pos ⟨rfl, v1.1, v1.2, rfl⟩, v0]
      · rw [if_neg (fun h => m1 h.1), getA, getA]
        unfold setParam
        rw [if_neg (by simp [hp]), if_neg m1]
        split_ifs <;> rfl
    · by_cases n2 : n = "cost_possibly_circumscribed_thresh"
      · subst n2
        by_cases m1 : m = "cost_possibly_circumscribed_thresh"
        · subst m1
          rw [setB hp hv, getB, getB, if_pos ⟨rfl, v1.1, v1.2, rfl⟩]
        · rw [if_neg (fun h => m1 h.1), getB, getB]
          unfold setParam
          rw [if_neg (by simp [hp]), if_neg m1]
          split_ifs <;> rfl
      · by_cases n3 : n = "cost_obsthresh"
        · subst n3
          by_cases m1 : m = "cost_obsthresh"
          · subst m1
            rw [setC hp hv, getC, getC, if_pos ⟨rfl, v1.1, v1.2, rfl⟩, v0]
          · rw [if_neg (fun h => m1 h.1), getC, getC]
            unfold setParam
            rw [if_neg (by simp [hp]), if_neg m1]
            split_ifs <;> rfl
        · rw [getD n1 n2 n3, getD n1 n2 n3, if_neg (by rintro ⟨-, -, -, h⟩; cases h)]

/-- before the environment is initialised GetEnvParameter returns, for the three parameters, the last value that SetEnvParameter accepted (initially 254, -1, 254), and throws for other names -/
theorem get_last (calls : List (String × Int)) :
    (∀ n d, (n, d) ∈ Known → getParam (setAll params0 calls) n = some (lastValue n d calls)) ∧
    (∀ n, (∀ d, (n, d) ∉ Known) → getParam (setAll params0 calls) n = none) := by
  induction calls using List.reverseRecOn with
  | nil =>
    constructor
    · intro n d h
      simp only [Known, List.mem_cons, Prod.mk.injEq, List.not_mem_nil, or_false] at h
      rcases h with ⟨rfl, rfl⟩ | ⟨rfl, rfl⟩ | ⟨rfl, rfl⟩ <;> rfl
    · intro n h
      have h1 := h 254
      have h2 := h (-1)
      refine getD (fun e => h1 ?_) (fun e => h2 ?_) (fun e => h1 ?_) _ <;> rw [e] <;> decide
  | append_singleton l nv ih =>
    rw [setAll_append]
    constructor
    · intro n d h
      rw [get_set _ (setAll_inited l), ih.1 n d h]
      unfold lastValue
      rw [List.filter_append]
      by_cases c : nv.1 = n ∧ 0 ≤ nv.2 ∧ nv.2 ≤ 255
      · rw [if_pos ⟨c.1, c.2.1, c.2.2, rfl⟩]
        simp [c]
      · rw [if_neg (by rintro ⟨a, b, e, -⟩; exact c ⟨a, b, e⟩)]
        have : [nv].filter (fun nv => decide (nv.1 = n ∧ 0 ≤ nv.2 ∧ nv.2 ≤ 255)) = [] := by
          rw [List.filter_cons_of_neg (by simpa using c)]; rfl
        rw [this, List.append_nil]
    · intro n h
      rw [get_set _ (setAll_inited l), ih.2 n h, if_neg (by simp)]

/-- parameters of the grid map: after any calls before initialisation the connectivity is 16 if the last call for `is16connected` had a value other than 0, and 8 otherwise -/
theorem connectivity (calls : List (String × Int)) :
    (calls.foldl (fun p nv => (Nav2DInit.setParam p nv.1 nv.2).1) (8, false)) =
      (match (calls.filter (fun nv => decide (nv.1 = "is16connected"))).getLast? with
        | none => 8
        | some nv => if nv.2 = 0 then 8 else 16, false) := by
  induction calls using List.reverseRecOn with
  | nil => rfl
  | append_singleton l nv ih =>
    rw [List.foldl_append, ih, List.filter_append]
    simp only [List.foldl_cons, List.foldl_nil]
    unfold Nav2DInit.setParam
    by_cases h : nv.1 = "is16connected"
    · by_cases h0 : nv.2 = 0 <;> simp [h, h0]
    · rw [if_neg (by simp), if_neg h]
      have : [nv].filter (fun nv => decide (nv.1 = "is16connected")) = [] := by
        rw [List.filter_cons_of_neg (by simpa using h)]; rfl
      rw [this, List.append_nil]

/-! ### InitializeEnv with arguments -/

/-- what an environment made from arguments looks like -/
structure MadeFrom (foot : ℚ → ℚ × ℚ × ℚ → List (Int × Int)) (poly : Bool) (calls : List (String × Int)) (a : XArgs) (s : Setup) : Prop where
  W : s.W = a.W
  H : s.H = a.H
  T : s.T = a.T
  cs : s.cs = a.cs
  obs : s.obs = a.obs
  poly : s.poly = poly
  foot : s.foot = foot a.cs
  map : s.map = a.map
  inscr : (s.inscr : Int) = lastValue "cost_inscribed_thresh" 254 calls
  circ : ∀ v : Nat, s.circ ≤ v ↔ lastValue "cost_possibly_circumscribed_thresh" (-1) calls ≤ v
  start : s.start = poseKey s a.startX a.startY a.startTheta
  goal : s.goal = poseKey s a.goalX a.goalY a.goalTheta

theorem core_init {foot : ℚ → ℚ × ℚ × ℚ → List (Int × Int)} {poly : Bool} {calls : List (String × Int)} {a : XArgs} {raws : List RawPrim} {p' : XParams} {st : XEnv}
    (h : initCore foot poly (setAll params0 calls) a raws = .ok (p', st)) :
    ∃ s, init s = .ok st ∧ MadeFrom foot poly calls a s ∧ (raws ≠ [] → s.prims = raws.map (XPrim.mkPrim a.T a.vel a.tt)) ∧
      (raws = [] → s.prims = XDfl.prims a.T a.cs a.vel a.tt) ∧ ∀ n v, setParam p' n v = (p', false) := by
  unfold initCore at h
  split_ifs at h with h1 h2 h3
  · split at h
    next => cases h
    next st' hi =>
      cases h
      rw [XDflProps.default_init] at hi
      refine ⟨_, hi, ⟨rfl, rfl, rfl, rfl, rfl, rfl, rfl, rfl, ?_, ?_, rfl, rfl⟩, fun hn => absurd (List.isEmpty_iff.mp h3) hn, fun _ => rfl, ?_⟩
      · have := (get_last calls).1 "cost_inscribed_thresh" 254 (by decide)
        rw [getA, Option.some.injEq] at this
        exact this
      · have := (get_last calls).1 "cost_possibly_circumscribed_thresh" (-1) (by decide)
        rw [getB, Option.some.injEq] at this
        intro v
        rw [← this]
        show (setAll params0 calls).circ.toNat ≤ v ↔ _
        omega
      · intro n v
        unfold setParam
        rw [if_pos rfl]
  · split at h
    next => cases h
    next st' hi =>
      cases h
      refine ⟨_, hi, ⟨rfl, rfl, rfl, rfl, rfl, rfl, rfl, rfl, ?_, ?_, rfl, rfl⟩, fun _ => rfl, fun hn => absurd (List.isEmpty_iff.mpr hn) h3, ?_⟩
      · have := (get_last calls).1 "cost_inscribed_thresh" 254 (by decide)
        rw [getA, Option.some.injEq] at this
        exact this
      · have := (get_last calls).1 "cost_possibly_circumscribed_thresh" (-1) (by decide)
        rw [getB, Option.some.injEq] at this
        intro v
        rw [← this]
        show (setAll params0 calls).circ.toNat ≤ v ↔ _
        omega
      · intro n v
        unfold setParam
        rw [if_pos rfl]

/-- the environment made from arguments: map size, headings, cell size, cells and the obstacle threshold are those of the call, also if `cost_obsthresh` was set before; the other two
thresholds are those set before; start and goal are the states nearest to the given poses; the primitives are those of the file, or the built-in ones if the file lists none.  No parameter
can be changed afterwards. -/
theorem args_init {foot : ℚ → ℚ × ℚ × ℚ → List (Int × Int)} {poly : Bool} {calls : List (String × Int)} {a : XArgs} {txt : Scan.Text} {p' : XParams} {st : XEnv}
    (h : initArgs foot poly (setAll params0 calls) a txt = .ok (p', st)) :
    ∃ s l rest, Scan.readPrims a.cs a.T txt = .ok (some l, rest) ∧ init s = .ok st ∧ MadeFrom foot poly calls a s ∧
      (l ≠ [] → s.prims = (l.map Prod.snd).map (XPrim.mkPrim a.T a.vel a.tt)) ∧ (l = [] → s.prims = XDfl.prims a.T a.cs a.vel a.tt) ∧
      ∀ n v, setParam p' n v = (p', false) := by
  unfold initArgs at h
  split at h
  next => cases h
  next => cases h
  next l rest hl =>
    obtain ⟨s, h1, h2, h3, h4, h5⟩ := core_init h
    exact ⟨s, l, rest, hl, h1, h2, fun hn => h3 (by simpa using hn), fun hn => h4 (by simp [hn]), h5⟩

/-- the environment made from arguments without a file of primitives: the same, with the built-in actions (see C179, C180) -/
theorem args_none_init {foot : ℚ → ℚ × ℚ × ℚ → List (Int × Int)} {poly : Bool} {calls : List (String × Int)} {a : XArgs} {p' : XParams} {st : XEnv}
    (h : initArgsNone foot poly (setAll params0 calls) a = .ok (p', st)) :
    ∃ s, init s = .ok st ∧ MadeFrom foot poly calls a s ∧ s.prims = XDfl.prims a.T a.cs a.vel a.tt ∧ ∀ n v, setParam p' n v = (p', false) := by
  obtain ⟨s, h1, h2, -, h4, h5⟩ := core_init h
  exact ⟨s, h1, h2, h4 rfl, h5⟩

/-! ### re-creating an environment -/

theorem init_of_precompute {s : Setup} (hs : InRange s s.start) (hg : InRange s s.goal) {r : (Int → List XAct) × (Int → List XAct)}
    (hp : precompute s.T s.cs s.foot s.prims = .ok r) : ∃ st, init s = .ok st := by
  unfold init
  obtain ⟨⟨a1, a2, a3, a4⟩, a5, a6⟩ := hs
  obtain ⟨⟨b1, b2, b3, b4⟩, b5, b6⟩ := hg
  rw [if_neg (not_not.mpr ⟨a1, a2, a3, a4, a5, a6⟩), if_neg (not_not.mpr ⟨b1, b2, b3, b4, b5, b6⟩), hp]
  simp only
  obtain ⟨st1, i, e1, c1⟩ := XFileProps.getState_ok (st := fresh s r.1 r.2) (k := s.start) (by
    rw [XCfg.inRange_iff]; exact ⟨⟨a1, a2, a3, a4⟩, a5, a6⟩)
  rw [e1]
  simp only
  obtain ⟨st2, j, e2, c2⟩ := XFileProps.getState_ok (st := st1) (k := s.goal) (by
    rw [c1, XCfg.inRange_iff]; exact ⟨⟨b1, b2, b3, b4⟩, b5, b6⟩)
  rw [e2]
  exact ⟨_, rfl⟩

/-- the setup of the re-created environment: that of the old one, with the current map, start and goal -/
def Current (s : Setup) (ops : List Op) (s' : Setup) : Prop :=
  s'.W = s.W ∧ s'.H = s.H ∧ s'.T = s.T ∧ s'.cs = s.cs ∧ s'.obs = s.obs ∧ s'.inscr = s.inscr ∧ s'.circ = s.circ ∧ s'.poly = s.poly ∧ s'.foot = s.foot ∧ s'.prims = s.prims ∧
  s'.start = startOf s ops ∧ s'.goal = goalOf s ops ∧ ∀ q, XSpec.InMap s q → costs s' [] q.1 q.2 = costs s ops q.1 q.2

theorem current_edges {s s' : Setup} {ops : List Op} (c : Current s ops s') {m : MPrim} {p q : XKey} {n : Nat} :
    Edge s' (costs s' []) m p q n ↔ Edge s (costs s ops) m p q n := by
  obtain ⟨c1, c2, c3, c4, c5, c6, c7, c8, c9, c10, c11, c12, c13⟩ := c
  have im : ∀ z, XSpec.InMap s' z ↔ XSpec.InMap s z := by intro z; unfold XSpec.InMap; rw [c1, c2]
  have t : ∀ g, Edge s' g m p q n ↔ Edge s g m p q n := by
    intro g
    have h : s' = { s with map := s'.map, start := s'.start, goal := s'.goal } := by
      cases s; cases s'; simp_all
    constructor
    · intro e
      rw [h] at e
      exact ⟨e.mem, e.heading, e.endX, e.endY, e.endT, e.src, e.dst, e.centre, e.swept, e.cost, e.finite⟩
    · intro e
      rw [h]
      exact ⟨e.mem, e.heading, e.endX, e.endY, e.endT, e.src, e.dst, e.centre, e.swept, e.cost, e.finite⟩
  rw [t]
  exact ⟨XFileProps.edge_congr c13, XFileProps.edge_congr (fun q hq => (c13 q hq).symm)⟩

theorem copy_core {foot : ℚ → ℚ × ℚ × ℚ → List (Int × Int)} {s : Setup} {ops : List Op} {st : XEnv} (h : Hist s ops st) (hcs : 0 < s.cs) {vel tt : ℚ}
    {raws : List RawPrim} (hp : s.prims = if raws.isEmpty then XDfl.prims s.T s.cs vel tt else raws.map (XPrim.mkPrim s.T vel tt)) (hf : s.foot = foot s.cs) (hi : s.inscr ≤ 255) (hc : s.circ ≤ 255) :
    let p1 := setParam params0 "cost_inscribed_thresh" s.inscr
    let p2 := setParam p1.1 "cost_possibly_circumscribed_thresh" s.circ
    p1.2 = true ∧ p2.2 = true ∧
    ∃ p' st' s', initCore foot s.poly p2.1 (getParms st vel tt) raws = .ok (p', st') ∧ Hist s' [] st' ∧ Current s ops s' ∧
      (∀ m p q n, Edge s' (costs s' []) m p q n ↔ Edge s (costs s ops) m p q n) ∧
      st'.getCoord st'.startId = st.getCoord st.startId ∧ st'.getCoord st'.goalId = st.getCoord st.goalId := by
  intro p1 p2
  have e1 : p1 = ({ params0 with inscr := s.inscr }, true) := by
    show setParam params0 "cost_inscribed_thresh" s.inscr = _
    rw [setA rfl (by omega)]
    simp
  have e2 : p2 = ({ params0 with inscr := s.inscr, circ := s.circ }, true) := by
    show setParam p1.1 "cost_possibly_circumscribed_thresh" s.circ = _
    rw [e1]
    exact setB rfl (by omega)
  refine ⟨by rw [e1], by rw [e2], ?_⟩
  obtain ⟨iv, tg, ts, te⟩ := hist_inv h
  obtain ⟨ok, hc0, st0, h0, -⟩ := h
  have S := iv.stc
  have rs : InRange s st.cfg.start := S.inRange.mp (inRange_of_coord iv.x iv.startC)
  have rg : InRange s st.cfg.goal := S.inRange.mp (inRange_of_coord iv.x iv.goalC)
  have th1 : Utils.contTheta2Disc (Utils.discTheta2Cont st.cfg.start.2.2 s.T) s.T = st.cfg.start.2.2 := AngleProps.disc_cont_disc_theta rs.2.1 rs.2.2
  have th2 : Utils.contTheta2Disc (Utils.discTheta2Cont st.cfg.goal.2.2 s.T) s.T = st.cfg.goal.2.2 := AngleProps.disc_cont_disc_theta rg.2.1 rg.2.2
  let s' := { setupArgs foot s.poly p2.1 (getParms st vel tt) raws with prims := s.prims }
  have W' : s'.W = s.W := S.W
  have H' : s'.H = s.H := S.H
  have T' : s'.T = s.T := S.T
  have cs' : s'.cs = s.cs := S.cs
  have start' : s'.start = st.cfg.start := by
    show (Utils.contXY2Disc (Utils.discXY2Cont _ st.cfg.cs) st.cfg.cs, Utils.contXY2Disc (Utils.discXY2Cont _ st.cfg.cs) st.cfg.cs, Utils.contTheta2Disc (Utils.discTheta2Cont _ st.cfg.T) st.cfg.T) = _
    rw [S.cs, S.T, UtilsProps.disc_cont_disc _ hcs, UtilsProps.disc_cont_disc _ hcs, th1]
  have goal' : s'.goal = st.cfg.goal := by
    show (Utils.contXY2Disc (Utils.discXY2Cont _ st.cfg.cs) st.cfg.cs, Utils.contXY2Disc (Utils.discXY2Cont _ st.cfg.cs) st.cfg.cs, Utils.contTheta2Disc (Utils.discTheta2Cont _ st.cfg.T) st.cfg.T) = _
    rw [S.cs, S.T, UtilsProps.disc_cont_disc _ hcs, UtilsProps.disc_cont_disc _ hcs, th2]
  have prims' : s'.prims = s.prims := rfl
  have foot' : s'.foot = s.foot := by
    show foot st.cfg.cs = _
    rw [S.cs, hf]
  have cur : Current s ops s' := by
    refine ⟨W', H', T', cs', S.obs, ?_, ?_, rfl, foot', prims', by rw [start', ts], by rw [goal', te], ?_⟩
    · show p2.1.inscr = _; rw [e2]
    · show p2.1.circ.toNat = _; rw [e2]; rfl
    · intro q hq
      show s'.map (q.1 + q.2 * s'.W) = _
      show st.cfg.grid ((q.1 + q.2 * s'.W) % st.cfg.W) ((q.1 + q.2 * s'.W) / st.cfg.W) = _
      rw [W', S.W, tg, Int.add_mul_emod_self_right, Int.add_mul_ediv_right _ _ (by have := hq.2.1; have := hq.1; omega), Int.emod_eq_of_lt hq.1 hq.2.1, Int.ediv_eq_zero_of_lt hq.1 hq.2.1, zero_add]
  have ok' : SetupOk s' := by
    refine ⟨by rw [T']; exact ok.headings, by rw [prims']; exact ok.prims⟩
  obtain ⟨r, hr⟩ : ∃ r, precompute s.T s.cs s.foot s.prims = .ok r := by
    unfold init at h0
    split_ifs at h0
    cases e : precompute s.T s.cs s.foot s.prims with
    | ok r => exact ⟨r, rfl⟩
    | error e' => rw [e] at h0; cases h0
  have rng : ∀ k, InRange s' k ↔ InRange s k := by
    intro k; unfold InRange XSpec.InMap; rw [W', H', T']
  obtain ⟨st', hst'⟩ := init_of_precompute (s := s') (by rw [start', rng]; exact rs) (by rw [goal', rng]; exact rg) (r := r) (by rw [T', cs', foot', prims']; exact hr)
  have hH : Hist s' [] st' := ⟨ok', by simp, st', hst', rfl⟩
  obtain ⟨iv', -, ts', te'⟩ := hist_inv hH
  refine ⟨{ p2.1 with obs := st.cfg.obs, inited := true }, st', s', ?_, hH, cur, fun m p q n => current_edges cur, ?_, ?_⟩
  · have a4 : (if raws.isEmpty then XDfl.init (setupArgs foot s.poly p2.1 (getParms st vel tt) raws) (getParms st vel tt).vel (getParms st vel tt).tt
        else XEnv.init (setupArgs foot s.poly p2.1 (getParms st vel tt) raws)) = .ok st' := by
      by_cases hr : raws.isEmpty = true
      · rw [if_pos hr, XDflProps.default_init, ← hst']
        rw [if_pos hr] at hp
        show init { setupArgs foot s.poly p2.1 (getParms st vel tt) raws with prims := XDfl.prims st.cfg.T st.cfg.cs vel tt } = init s'
        rw [S.T, S.cs, ← hp]
      · rw [if_neg hr, ← hst']
        rw [if_neg hr] at hp
        show init { setupArgs foot s.poly p2.1 (getParms st vel tt) raws with prims := raws.map (XPrim.mkPrim st.cfg.T vel tt) } = init s'
        rw [S.T, ← hp]
    unfold initCore
    have a1 : Utils.contTheta2Disc (getParms st vel tt).startTheta (getParms st vel tt).T = st.cfg.start.2.2 := by
      show Utils.contTheta2Disc (Utils.discTheta2Cont _ st.cfg.T) st.cfg.T = _
      rw [S.T, th1]
    have a2 : Utils.contTheta2Disc (getParms st vel tt).goalTheta (getParms st vel tt).T = st.cfg.goal.2.2 := by
      show Utils.contTheta2Disc (Utils.discTheta2Cont _ st.cfg.T) st.cfg.T = _
      rw [S.T, th2]
    have a3 : ((getParms st vel tt).T : Int) = s.T := by
      show (st.cfg.T : Int) = _
      rw [S.T]
    rw [a1, a2, a3, if_neg (not_not.mpr rs.2), if_neg (not_not.mpr rg.2)]
    rw [a4]
    rfl
  · unfold getCoord
    rw [iv'.startC, iv.startC, ts', ts]
    show _ = Except.ok (startOf s ops)
    rw [← ts, ← start']; rfl
  · unfold getCoord
    rw [iv'.goalC, iv.goalC, te', te]
    show _ = Except.ok (goalOf s ops)
    rw [← te, ← goal']; rfl

/-! ### conversion of poses -/

/-- PoseDiscToCont accepts exactly the coordinates of states, and PoseContToDisc takes the pose back to them -/
theorem disc_pose {s : Setup} {c : XCfg} (S : Static s c) (hcs : 0 < s.cs) (k : XKey) :
    ((poseToCont c k.1 k.2.1 k.2.2).2 = true ↔ InRange s k) ∧
    (InRange s k → poseToDisc c (poseToCont c k.1 k.2.1 k.2.2).1.1 (poseToCont c k.1 k.2.1 k.2.2).1.2.1 (poseToCont c k.1 k.2.1 k.2.2).1.2.2 = (k, true)) := by
  have hT : 0 < s.T := S.T0
  constructor
  · unfold poseToCont InRange XSpec.InMap
    simp only [decide_eq_true_eq]
    rw [S.T, S.W, S.H]
    constructor
    · rintro ⟨a, b, c, d, e, f⟩; exact ⟨⟨c, d, e, f⟩, a, b⟩
    · rintro ⟨⟨c, d, e, f⟩, a, b⟩; exact ⟨a, b, c, d, e, f⟩
  · rintro ⟨⟨x0, xW, y0, yH⟩, t0, tT⟩
    have tp := AngleProps.turn_pos
    have hTq : (0 : ℚ) < s.T := by exact_mod_cast hT
    have d0 : 0 ≤ Utils.discTheta2Cont k.2.2 s.T := by
      unfold Utils.discTheta2Cont
      have : (0 : ℚ) ≤ k.2.2 := by exact_mod_cast t0
      have := AngleProps.pi_pos
      positivity
    have d1 : Utils.discTheta2Cont k.2.2 s.T < 2 * Utils.PI_CONST := by
      unfold Utils.discTheta2Cont
      have h1 : (k.2.2 : ℚ) < s.T := by exact_mod_cast tT
      have pp := AngleProps.pi_pos
      have : (k.2.2 : ℚ) * (2 * Utils.PI_CONST / s.T) < s.T * (2 * Utils.PI_CONST / s.T) := by
        apply mul_lt_mul_of_pos_right h1
        positivity
      rwa [mul_div_cancel₀ _ (ne_of_gt hTq)] at this
    have nz : Utils.normalizeAngle (Utils.discTheta2Cont k.2.2 s.T) = Utils.discTheta2Cont k.2.2 s.T := by
      unfold Utils.normalizeAngle
      have : ¬ |Utils.discTheta2Cont k.2.2 s.T| > 2 * Utils.PI_CONST := by rw [abs_of_nonneg d0]; exact not_lt.mpr d1.le
      simp only [if_neg this]
      rw [if_neg (not_lt.mpr d0)]
    unfold poseToDisc poseToCont
    simp only
    rw [S.cs, S.T, S.W, S.H, nz, UtilsProps.disc_cont_disc _ hcs, UtilsProps.disc_cont_disc _ hcs, AngleProps.disc_cont_disc_theta t0 tT]
    have : (Utils.discTheta2Cont k.2.2 s.T ≥ -2 * Utils.PI_CONST ∧ Utils.discTheta2Cont k.2.2 s.T ≤ 2 * Utils.PI_CONST ∧ k.1 ≥ 0 ∧ k.1 < s.W ∧ k.2.1 ≥ 0 ∧ k.2.1 < s.H) := by
      refine ⟨?_, d1.le, x0, xW, y0, yH⟩
      have pp := AngleProps.pi_pos
      linarith
    rw [decide_eq_true this]

/-- PoseContToDisc accepts exactly the positions in the map with angles of at most a full turn either way; its cell contains the position -/
theorem cont_pose {s : Setup} {c : XCfg} (S : Static s c) (hcs : 0 < s.cs) (x y th : ℚ) :
    ((poseToDisc c x y th).2 = true ↔ (0 ≤ x ∧ x < s.W * s.cs) ∧ (0 ≤ y ∧ y < s.H * s.cs) ∧ |th| ≤ AngleProps.TURN) ∧
    ((poseToDisc c x y th).2 = true → XSpec.InMap s ((poseToDisc c x y th).1.1, (poseToDisc c x y th).1.2.1) ∧
      UtilsSpec.InCell x s.cs (poseToDisc c x y th).1.1 ∧ UtilsSpec.InCell y s.cs (poseToDisc c x y th).1.2.1) := by
  have key : ∀ (z : ℚ) (n : Int), (Utils.contXY2Disc z s.cs ≥ 0 ∧ Utils.contXY2Disc z s.cs < n) ↔ (0 ≤ z ∧ z < n * s.cs) := by
    intro z n
    by_cases hz : 0 ≤ z
    · have hc := UtilsProps.contXY2Disc_nonneg hcs hz
      obtain ⟨a, b⟩ := hc
      constructor
      · rintro ⟨h1, h2⟩
        refine ⟨hz, lt_of_lt_of_le b ?_⟩
        have : ((Utils.contXY2Disc z s.cs : ℚ) + 1) ≤ n := by exact_mod_cast h2
        exact mul_le_mul_of_nonneg_right this hcs.le
      · rintro ⟨-, h2⟩
        constructor
        · have : (0 : ℚ) < ((Utils.contXY2Disc z s.cs : ℚ) + 1) := by
            by_contra hh
            have := mul_nonpos_of_nonpos_of_nonneg (not_lt.mp hh) hcs.le
            linarith
          have : (0 : Int) < Utils.contXY2Disc z s.cs + 1 := by exact_mod_cast this
          omega
        · have : (Utils.contXY2Disc z s.cs : ℚ) * s.cs < n * s.cs := lt_of_le_of_lt a h2
          exact_mod_cast lt_of_mul_lt_mul_right this hcs.le
    · constructor
      · rintro ⟨h1, -⟩
        exfalso
        unfold Utils.contXY2Disc at h1
        rw [if_neg hz] at h1
        have hq : z / s.cs < 0 := div_neg_of_neg_of_pos (not_le.mp hz) hcs
        rw [UtilsProps.trunc_neg hq] at h1
        have : ⌈z / s.cs⌉ ≤ 0 := Int.ceil_le.mpr (by exact_mod_cast hq.le)
        omega
      · rintro ⟨h1, -⟩; exact absurd h1 hz
  have ang : (th ≥ -2 * Utils.PI_CONST ∧ th ≤ 2 * Utils.PI_CONST) ↔ |th| ≤ AngleProps.TURN := by
    rw [abs_le]
    show _ ↔ -(2 * Utils.PI_CONST) ≤ th ∧ th ≤ 2 * Utils.PI_CONST
    constructor
    · rintro ⟨a, b⟩; exact ⟨by linarith, b⟩
    · rintro ⟨a, b⟩; exact ⟨by linarith, b⟩
  have main : (poseToDisc c x y th).2 = true ↔ (0 ≤ x ∧ x < s.W * s.cs) ∧ (0 ≤ y ∧ y < s.H * s.cs) ∧ |th| ≤ AngleProps.TURN := by
    unfold poseToDisc
    simp only [decide_eq_true_eq]
    rw [S.cs, S.W, S.H, ← key x s.W, ← key y s.H, ← ang]
    constructor
    · rintro ⟨a, b, c, d, e, f⟩; exact ⟨⟨c, d⟩, ⟨e, f⟩, a, b⟩
    · rintro ⟨⟨c, d⟩, ⟨e, f⟩, a, b⟩; exact ⟨a, b, c, d, e, f⟩
  refine ⟨main, fun h => ?_⟩
  obtain ⟨hx, hy, -⟩ := main.mp h
  have kx := (key x s.W).mpr hx
  have ky := (key y s.H).mpr hy
  unfold poseToDisc
  simp only
  rw [S.cs]
  exact ⟨⟨kx.1, kx.2, ky.1, ky.2⟩, UtilsProps.contXY2Disc_nonneg hcs hx.1, UtilsProps.contXY2Disc_nonneg hcs hy.1⟩

/-- the heading returned with `true` is one of the environment, and its bin contains the angle, except for one angle below a full turn, for which the number is one too large: then `true` is
returned with coordinates that PoseDiscToCont rejects -/
theorem cont_pose_heading {s : Setup} {c : XCfg} (S : Static s c) (x y th : ℚ) :
    (th ≠ AngleProps.TURN - AngleProps.TURN / s.T / 2 → 0 ≤ (poseToDisc c x y th).1.2.2 ∧ (poseToDisc c x y th).1.2.2 < s.T ∧ AngleProps.InBin th s.T (poseToDisc c x y th).1.2.2) ∧
    (th = AngleProps.TURN - AngleProps.TURN / s.T / 2 → (poseToDisc c x y th).1.2.2 = s.T) := by
  have hT : (0 : Int) < s.T := by exact_mod_cast S.T0
  unfold poseToDisc
  simp only
  rw [S.T]
  refine ⟨fun h => AngleProps.contTheta2Disc_bin hT (by push_cast; exact h), fun h => ?_⟩
  have := AngleProps.contTheta2Disc_out_of_range hT
  rw [h]
  push_cast at this
  exact this

/-- An environment can be copied through its interface: for an environment after any history of calls, a new object to which the two thresholds are passed with SetEnvParameter and which is
initialised with what GetEnvParms and GetMapCost report, the same footprint and the same file of primitives (at least one), is created without error and has the same start, goal and transitions. -/
theorem copy {foot : ℚ → ℚ × ℚ × ℚ → List (Int × Int)} {s : Setup} {ops : List Op} {st : XEnv} (h : Hist s ops st) (hcs : 0 < s.cs) {vel tt : ℚ}
    {txt : Scan.Text} {l : List (Int × RawPrim)} {rest : Scan.Text} (hl : Scan.readPrims s.cs s.T txt = .ok (some l, rest)) (hne : l ≠ [])
    (hp : s.prims = (l.map Prod.snd).map (XPrim.mkPrim s.T vel tt)) (hf : s.foot = foot s.cs) (hi : s.inscr ≤ 255) (hc : s.circ ≤ 255) :
    let p1 := setParam params0 "cost_inscribed_thresh" s.inscr
    let p2 := setParam p1.1 "cost_possibly_circumscribed_thresh" s.circ
    p1.2 = true ∧ p2.2 = true ∧
    ∃ p' st' s', initArgs foot s.poly p2.1 (getParms st vel tt) txt = .ok (p', st') ∧ Hist s' [] st' ∧ Current s ops s' ∧
      (∀ m p q n, Edge s' (costs s' []) m p q n ↔ Edge s (costs s ops) m p q n) ∧
      st'.getCoord st'.startId = st.getCoord st.startId ∧ st'.getCoord st'.goalId = st.getCoord st.goalId := by
  obtain ⟨a, b, p', st', s', c, d⟩ := copy_core h hcs (vel := vel) (tt := tt) (raws := l.map Prod.snd)
    (by rw [if_neg (by cases l with | nil => exact absurd rfl hne | cons _ _ => simp), hp]) hf hi hc
  refine ⟨a, b, p', st', s', ?_, d⟩
  unfold initArgs
  have a0 : Scan.readPrims (getParms st vel tt).cs (getParms st vel tt).T txt = .ok (some l, rest) := by
    have S := (hist_inv h).1.stc
    show Scan.readPrims st.cfg.cs st.cfg.T txt = _
    rw [S.cs, S.T, hl]
  rw [a0]
  exact c

/-- The same for an environment without motion primitives (`XDfl.setup`, see C179) -/
theorem copy_none {foot : ℚ → ℚ × ℚ × ℚ → List (Int × Int)} {s : Setup} {ops : List Op} {st : XEnv} (h : Hist s ops st) (hcs : 0 < s.cs) {vel tt : ℚ}
    (hp : s.prims = XDfl.prims s.T s.cs vel tt) (hf : s.foot = foot s.cs) (hi : s.inscr ≤ 255) (hc : s.circ ≤ 255) :
    let p1 := setParam params0 "cost_inscribed_thresh" s.inscr
    let p2 := setParam p1.1 "cost_possibly_circumscribed_thresh" s.circ
    p1.2 = true ∧ p2.2 = true ∧
    ∃ p' st' s', initArgsNone foot s.poly p2.1 (getParms st vel tt) = .ok (p', st') ∧ Hist s' [] st' ∧ Current s ops s' ∧
      (∀ m p q n, Edge s' (costs s' []) m p q n ↔ Edge s (costs s ops) m p q n) ∧
      st'.getCoord st'.startId = st.getCoord st.startId ∧ st'.getCoord st'.goalId = st.getCoord st.goalId := by
  exact copy_core h hcs (vel := vel) (tt := tt) (raws := []) (by rw [if_pos (by rfl), hp]) hf hi hc

end Sbpl.XInitProps
