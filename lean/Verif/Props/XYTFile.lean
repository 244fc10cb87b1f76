import Verif.Model.XYTFile
import Verif.Props.CfgFileX
import Verif.Props.PrimFile
import Verif.Props.XYTARA
import Verif.Props.XYTPrim
import Verif.Props.Angles
/-!
# From a map file and a file of motion primitives to a plan on the lattice
-/

namespace Sbpl.XFileProps
open Sbpl Scan FileSpec CfgFileProps CfgFileXProps PrimFileProps GraphSpec PlannerSpec XSpec XEnv XYTARAProps

/-! ### only the cells of the map matter -/

theorem maxCost_congr {g g' : Int → Int → Nat} {S : Int × Int → Prop} (h : ∀ q, S q → g q.1 q.2 = g' q.1 q.2) {m : Nat} (hm : MaxCost g S m) : MaxCost g' S m := by
  obtain ⟨h1, h2⟩ := hm
  refine ⟨fun q hq => by rw [← h q hq]; exact h1 q hq, ?_⟩
  rcases h2 with h2 | ⟨q, hq, h2⟩
  · exact .inl h2
  · exact .inr ⟨q, hq, by rw [← h q hq]; exact h2⟩

theorem edge_congr {s : Setup} {g g' : Int → Int → Nat} (h : ∀ q : Int × Int, XSpec.InMap s q → g q.1 q.2 = g' q.1 q.2) {m : MPrim} {p q : XKey} {c : Nat}
    (e : Edge s g m p q c) : Edge s g' m p q c := by
  have hc : ∀ r, Centre s m r → g (shift p r).1 (shift p r).2 = g' (shift p r).1 (shift p r).2 := fun r hr => h _ (e.centre r hr).1
  have e1 := h _ e.src.1
  have e2 := h _ e.dst.1
  dsimp only at e1 e2
  refine ⟨e.mem, e.heading, e.endX, e.endY, e.endT, ⟨e.src.1, by rw [← e1]; exact e.src.2⟩, ⟨e.dst.1, by rw [← e2]; exact e.dst.2.1, by rw [← e2]; exact e.dst.2.2⟩, ?_, ?_, ?_, e.finite⟩
  · intro r hr
    exact ⟨(e.centre r hr).1, by rw [← hc r hr]; exact (e.centre r hr).2⟩
  · intro hp hv r hr
    have := e.swept hp (fun v mv => hv v (maxCost_congr (by rintro z ⟨r, hr, rfl⟩; exact hc r hr) mv)) r hr
    exact ⟨this.1, by rw [← h _ this.1]; exact this.2⟩
  · obtain ⟨v, mv, hv⟩ := e.cost
    refine ⟨v, maxCost_congr ?_ mv, hv⟩
    rintro z (rfl | rfl | ⟨r, hr, rfl⟩)
    · exact e1
    · exact e2
    · exact hc r hr

theorem lpath_congr {s : Setup} {g g' : Int → Int → Nat} (h : ∀ q : Int × Int, XSpec.InMap s q → g q.1 q.2 = g' q.1 q.2) {ks : List XKey} {n : Nat} (w : LPath s g ks n) :
    LPath s g' ks n := by
  induction w with
  | single p => exact .single p
  | cons m e _ ih => exact .cons m (edge_congr h e) ih

theorem lwalk_congr {s : Setup} {g g' : Int → Int → Nat} (h : ∀ q : Int × Int, XSpec.InMap s q → g q.1 q.2 = g' q.1 q.2) {p q : XKey} {n : Nat} (w : LWalk s g p q n) :
    LWalk s g' p q n := by
  induction w with
  | nil => exact .nil
  | snoc m _ e ih => exact .snoc m ih (edge_congr h e)

/-! ### initialisation from files -/

/-- the setup that the two files describe: sizes, headings, cell size, thresholds, cells, start and goal of the map file; the primitives of the other file, with costs computed from
the velocity and the turning time of the map file -/
structure Described (foot : ℚ → ℚ × ℚ × ℚ → List (Int × Int)) (poly : Bool) (W H : Nat) (T vo vi vc : Int) (cs vel tt : ℚ) (start goal : XKey) (val : Int → Int → Nat)
    (raws : List RawPrim) (s : Setup) : Prop where
  W_eq : s.W = W
  H_eq : s.H = H
  T_eq : (s.T : Int) = T
  cs_eq : s.cs = cs
  obs_eq : (s.obs : Int) = vo
  inscr_eq : (s.inscr : Int) = vi
  circ_eq : (s.circ : Int) = max vc 0
  poly_eq : s.poly = poly
  foot_eq : s.foot = foot cs
  prims_eq : s.prims = raws.map (XPrim.mkPrim s.T vel tt)
  start_eq : s.start = start
  goal_eq : s.goal = goal
  cell_eq : ∀ x y : Int, 0 ≤ x → x < W → 0 ≤ y → y < H → s.map (x + y * W) = val x y

section
variable {w h : Word} {th : List Word} {o i c csw velw ttw l1 sx sy sth l2 ex ey eth l3 : Word} {W H : Nat} {T : Nat} {vo vi vc : Int} {cs vel tt x0 y0 a0 x1 y1 a1 : ℚ}
variable {tm tp : Text} {cell : Nat → Nat → Word} {val : Int → Int → Nat} {extra extra' : List Word} {cw tw nw : Word} {res : ℚ} {ps : List PrimText} {vs : List (Int × RawPrim)}
variable {foot : ℚ → ℚ × ℚ × ℚ → List (Int × Int)} {poly : Bool}

/-- InitializeEnv with a map file and a file of motion primitives builds the environment that the files describe -/
theorem files_init (L : Layout (xytFile w h th o i c csw velw ttw l1 sx sy sth l2 ex ey eth l3 (rows W H cell ++ extra)) tm)
    (N : XNumbers w h th o i c csw velw ttw l1 sx sy sth l2 ex ey eth l3 W H T vo vi vc cs vel tt x0 y0 a0 x1 y1 a1)
    (hs : GridSpec.InMap W H ⌊x0 / cs⌋ ⌊y0 / cs⌋) (he : GridSpec.InMap W H ⌊x1 / cs⌋ ⌊y1 / cs⌋)
    (hcell : ∀ x y : Nat, x < W → y < H → IsInt (cell x y) (val x y) ∧ val x y < 256) (hT : 0 < T) (hT' : T ≤ 2147483647)
    (ho : 0 ≤ vo ∧ vo < 256) (hi : 0 ≤ vi ∧ vi < 256)
    (Lp : Layout (primFile cw tw nw (ps.flatMap PrimText.words ++ extra')) tp) (hc : IsDec cw res) (hf : |res - cs| ≤ 1 / 10000000)
    (ht : IsInt tw T) (hn : IsInt nw ps.length) (hN : ps.length ≤ 2147483647)
    (hp : List.Forall₂ (fun (p : PrimText) (v : Int × RawPrim) => Denotes T p v.1 v.2 ∧ XPrim.checkEnd cs T v.2 = .ok true) ps vs)
    (hst : Utils.contTheta2Disc a0 T < T) (hgo : Utils.contTheta2Disc a1 T < T) :
    ∃ s, Described foot poly W H T vo vi vc cs vel tt (⌊x0 / cs⌋, ⌊y0 / cs⌋, Utils.contTheta2Disc a0 T) (⌊x1 / cs⌋, ⌊y1 / cs⌋, Utils.contTheta2Disc a1 T) val (vs.map Prod.snd) s ∧
      XInit.initFiles foot poly tm tp = (XEnv.init s).mapError .env := by
  obtain ⟨f, rest, r, r1, r2, r3, r4, r5, r6, r7, r8, r9, r10, r11, r12, r13, r14, r15⟩ := xyt_file_read (val := fun x y => (val x y : Int)) L N hs he
    (fun x y hx hy => ⟨(hcell x y hx hy).1, by have := (hcell x y hx hy).2; unfold IntRange; omega⟩)
  obtain ⟨rest', q, _⟩ := prim_file_read (T := T) Lp hc hf ht hT' hn hN hp
  have hTn : f.T.toNat = T := by rw [r3]; simp
  refine ⟨XInit.setupOf foot poly f (vs.map Prod.snd), ⟨r1, r2, ?_, r7, ?_, ?_, ?_, rfl, ?_, ?_, ?_, ?_, ?_⟩, ?_⟩
  · show ((f.T.toNat : Nat) : Int) = T
    rw [hTn]
  · show (f.obs : Int) = vo
    rw [r4]; omega
  · show (f.inscr : Int) = vi
    rw [r5]; omega
  · show ((f.circ.toNat : Nat) : Int) = _
    rw [r6]; omega
  · show foot f.cs = _
    rw [r7]
  · show _ = _
    unfold XInit.setupOf
    simp only [r8, r9]
  · show (f.start.1, f.start.2, _) = _
    rw [r10, r11, hTn]
  · show (f.goal.1, f.goal.2, _) = _
    rw [r12, r13, hTn]
  · intro x y hx0 hx hy0 hy
    show f.grid ((x + y * W) % f.W) ((x + y * W) / f.W) = _
    have hW : (0 : Int) < W := by omega
    have m1 : (x + y * W) % (W : Int) = x := by rw [Int.add_mul_emod_self_right, Int.emod_eq_of_lt hx0 hx]
    have m2 : (x + y * W) / (W : Int) = y := by rw [Int.add_mul_ediv_right _ _ (by omega), Int.ediv_eq_zero_of_lt hx0 hx, zero_add]
    rw [r1, m1, m2]
    obtain ⟨x', rfl⟩ := Int.eq_ofNat_of_zero_le hx0
    obtain ⟨y', rfl⟩ := Int.eq_ofNat_of_zero_le hy0
    have := r15 x' y' (by omega) (by omega) (by omega) (by have := (hcell x' y' (by omega) (by omega)).2; omega)
    exact_mod_cast this
  · unfold XInit.initFiles
    rw [r]
    simp only
    rw [if_neg (by omega), hTn, r7, q]
    simp only
    have n0 : (0 : Int) ≤ Utils.contTheta2Disc a0 T := (AngleProps.contTheta2Disc_bin (by omega) (by
      rintro rfl
      rw [AngleProps.contTheta2Disc_out_of_range (by omega)] at hst
      omega)).1
    have n1 : (0 : Int) ≤ Utils.contTheta2Disc a1 T := (AngleProps.contTheta2Disc_bin (by omega) (by
      rintro rfl
      rw [AngleProps.contTheta2Disc_out_of_range (by omega)] at hgo
      omega)).1
    rw [r11, r13, r3, if_neg (by rw [not_not]; exact ⟨n0, hst⟩), if_neg (by rw [not_not]; exact ⟨n1, hgo⟩)]
    cases XEnv.init (XInit.setupOf foot poly f (vs.map Prod.snd)) <;> rfl


/-- the displacements and headings of the primitives fit into a `char` -/
def PrimsFit (raws : List RawPrim) : Prop := ∀ r ∈ raws, -128 ≤ r.dX ∧ r.dX ≤ 127 ∧ -128 ≤ r.dY ∧ r.dY ≤ 127 ∧ -128 ≤ r.endTheta ∧ r.endTheta ≤ 127

theorem described_ok {vo vi vc : Int} {start goal : XKey} {raws : List RawPrim} {s : Setup} (D : Described foot poly W H T vo vi vc cs vel tt start goal val raws s) (hT : T ≤ 128)
    (hp : PrimsFit raws) : SetupOk s := by
  refine ⟨by have := D.T_eq; omega, ?_⟩
  intro m hm
  rw [D.prims_eq] at hm
  obtain ⟨r, hr, rfl⟩ := List.mem_map.mp hm
  exact hp r hr

/-- the costs of the environment that the files describe are those of the map file -/
theorem described_costs {vo vi vc : Int} {start goal : XKey} {raws : List RawPrim} {s : Setup} (D : Described foot poly W H T vo vi vc cs vel tt start goal val raws s) :
    ∀ q : Int × Int, XSpec.InMap s q → costs s [] q.1 q.2 = val q.1 q.2 := by
  rintro ⟨x, y⟩ ⟨h1, h2, h3, h4⟩
  rw [D.W_eq] at h2
  rw [D.H_eq] at h4
  show s.map (x + y * s.W) = _
  rw [D.W_eq]
  exact D.cell_eq x y h1 h2 h3 h4

/-- **C159** The lattice is initialised from a map file and a file of motion primitives, and ARA* is run on it from the start to the goal of the map file: a path it finds is a chain of
primitives of the file, collision-free with the cell costs and thresholds of the map file, from the cell and heading of the start pose to those of the goal pose, of at most the
cost reported; if the primitives begin and end at centres of cells, this cost is at least the time the straight line between start and goal cell takes. -/
theorem files_to_lattice_plan (L : Layout (xytFile w h th o i c csw velw ttw l1 sx sy sth l2 ex ey eth l3 (rows W H cell ++ extra)) tm)
    (N : XNumbers w h th o i c csw velw ttw l1 sx sy sth l2 ex ey eth l3 W H T vo vi vc cs vel tt x0 y0 a0 x1 y1 a1)
    (hs : GridSpec.InMap W H ⌊x0 / cs⌋ ⌊y0 / cs⌋) (he : GridSpec.InMap W H ⌊x1 / cs⌋ ⌊y1 / cs⌋)
    (hcell : ∀ x y : Nat, x < W → y < H → IsInt (cell x y) (val x y) ∧ val x y < 256) (hT : 0 < T) (hT' : T ≤ 128)
    (ho : 0 ≤ vo ∧ vo < 256) (hi : 0 ≤ vi ∧ vi < 256)
    (Lp : Layout (primFile cw tw nw (ps.flatMap PrimText.words ++ extra')) tp) (hc : IsDec cw res) (hf : |res - cs| ≤ 1 / 10000000)
    (ht : IsInt tw T) (hn : IsInt nw ps.length) (hN : ps.length ≤ 2147483647)
    (hp : List.Forall₂ (fun (p : PrimText) (v : Int × RawPrim) => Denotes T p v.1 v.2 ∧ XPrim.checkEnd cs T v.2 = .ok true) ps vs)
    (fit : PrimsFit (vs.map Prod.snd)) (hst : Utils.contTheta2Disc a0 T < T) (hgo : Utils.contTheta2Disc a1 T < T)
    {stx : XEnv} (hinit : XInit.initFiles foot poly tm tp = .ok stx) :
    ∃ s, Described foot poly W H T vo vi vc cs vel tt (⌊x0 / cs⌋, ⌊y0 / cs⌋, Utils.contTheta2Disc a0 T) (⌊x1 / cs⌋, ⌊y1 / cs⌋, Utils.contTheta2Disc a1 T) val (vs.map Prod.snd) s ∧
      Hist s [] stx ∧
      ∀ {env0 : PEnv} {fwd : Bool} {D ie fe de : Nat} {fs : Bool} {ops : List ARA.Op} {st st' : ARA} {res : ARA.Result} {a b : Nat} {bs : List Nat}
        {num : XKey → Nat} {den : Nat → Option XKey} {hg hs : XKey → XKey → Int}, EnvOk env0 → (∀ op ∈ ops, OpOk op) →
        (ARA.init env0 fwd D ie fe de fs).run ops = some st → lastStart ops = some a → lastGoal ops = some b → bs ≠ [] →
        st.replan bs = .ok (st', res) → XNumbering s num den → lastEnv env0 ops = xytPEnv stx.cfg num den hg hs →
        den a = some s.start → den b = some s.goal →
        (res.found = true → ∃ ks n, res.path.map den = ks.map some ∧ ks.head? = some s.start ∧ ks.getLast? = some s.goal ∧ LPath s val ks n ∧ n ≤ res.cost ∧
          (0 < vel → 0 ≤ tt → (∀ v ∈ vs, RawExact cs v.2 ∧ 1 ≤ v.2.mult) →
            1000 * Real.sqrt ((((centreOf s s.goal).1 - (centreOf s s.start).1) * ((centreOf s s.goal).1 - (centreOf s s.start).1) +
              ((centreOf s s.goal).2 - (centreOf s s.start).2) * ((centreOf s s.goal).2 - (centreOf s s.start).2) : ℚ) : ℝ) ≤ res.cost * (vel : ℝ))) ∧
        (∀ {e n m k : Nat}, res.finalEps = some e → 0 < D → D ≤ e → 0 < vel → 0 ≤ tt → (∀ v ∈ vs, RawExact cs v.2 ∧ 1 ≤ v.2.mult) → Followable s vel → CostAtLeast s m → Slack vel k →
          (∀ g, InRange s g → HeurFrom s vel (costs s []) g (hg g)) → (∀ g, InRange s g → HeurFrom s vel (costs s []) g (hs g)) →
          LWalk s val s.start s.goal n →
          res.found = true ∧ D * m * res.cost ≤ (e * m + e * k + D) * n ∧ ((∃ z : Nat, vel = z) → e = D → res.cost ≤ n)) := by
  obtain ⟨s, Ds, e⟩ := files_init (foot := foot) (poly := poly) L N hs he hcell hT (by omega) ho hi Lp hc hf ht hn hN hp hst hgo
  have ok := described_ok Ds hT' fit
  have gr := described_costs Ds
  have hx : Hist s [] stx := by
    refine ⟨ok, by simp, stx, ?_, rfl⟩
    rw [hinit] at e
    cases q : XEnv.init s with
    | error _ => rw [q] at e; cases e
    | ok st => rw [q] at e; cases e; rfl
  refine ⟨s, Ds, hx, ?_⟩
  intro env0 fwd D ie fe de fs ops st st' res a b bs num den hg hs' henv hok hrun hsa hgb hbs hrep XN hmap hda hdb
  have raws : ∀ (P : RawPrim → Prop), (∀ v ∈ vs, P v.2) → ∀ r ∈ vs.map Prod.snd, P r := by
    intro P h r hr
    obtain ⟨v, hv, rfl⟩ := List.mem_map.mp hr
    exact h v hv
  refine ⟨?_, ?_⟩
  · intro hfound
    obtain ⟨ks, n, k1, k2, k3, _, k4, k5⟩ := ara_xyt_path henv hok hrun hsa hgb hbs hrep hfound hx XN hmap hda hdb
    refine ⟨ks, n, k1, k2, k3, lpath_congr gr k4, k5, ?_⟩
    intro hv htt hex
    have c1 := XYTPrimProps.path_cost_covers hv htt Ds.prims_eq (by rw [Ds.cs_eq]; exact raws (fun r => RawExact cs r ∧ 1 ≤ r.mult) hex) k4 k2 k3
    refine le_trans c1 ?_
    have : (n : ℝ) ≤ res.cost := by exact_mod_cast k5
    have hv' : (0 : ℝ) ≤ vel := by exact_mod_cast hv.le
    exact mul_le_mul_of_nonneg_right this hv'
  · intro e' n m k hfe hD hDe hv htt hex hw hm hk hG hS wk
    exact ara_xyt_bound henv hok hrun hsa hgb hbs hrep hfe hD hDe hx XN hmap hda hdb hv
      (XYTPrimProps.computed_not_too_fast hv htt Ds.prims_eq (by rw [Ds.cs_eq]; exact raws (fun r => RawExact cs r ∧ 1 ≤ r.mult) hex)) hw hm hk hG hS
      (lwalk_congr (fun q hq => (gr q hq).symm) wk)



/-! ### when the initialisation succeeds -/

/-- for every heading the list contains the same number of primitives that begin with it, and no other primitives -/
def Even (T : Nat) (starts : List Int) : Prop := ∃ k, starts.length = T * k ∧ ∀ t : Nat, t < T → starts.count (t : Int) = k

theorem acts_length (cs : ℚ) (foot : ℚ × ℚ × ℚ → List (Int × Int)) (prims : List MPrim) (t : Int) :
    (actsFor cs foot prims t).length = (prims.map (fun m => m.startTheta)).count t := by
  unfold actsFor
  rw [List.length_mapIdx, List.count, List.countP_map, List.countP_eq_length_filter]
  congr 1

theorem foldl_max_const {k : Nat} : ∀ (l : List Nat) (a : Nat), (∀ x ∈ l, x = k) → l ≠ [] → a ≤ k → l.foldl max a = k := by
  intro l
  induction l with
  | nil => intro a _ h; exact absurd rfl h
  | cons x l ih =>
    intro a h _ ha
    have hx := h x (by simp)
    subst hx
    rw [List.foldl_cons, Nat.max_eq_right ha]
    cases l with
    | nil => rfl
    | cons y l => exact ih _ (fun z hz => h z (by simp [hz])) (by simp) (le_refl _)

theorem getState_ok {st : XEnv} {k : XKey} (h : st.cfg.inRange k = true) : ∃ st' i, st.getState k = .ok (st', i) ∧ st'.cfg = st.cfg := by
  unfold getState
  cases st.find k with
  | some e => exact ⟨_, _, rfl, rfl⟩
  | none =>
    simp only
    unfold create
    simp only
    by_cases l : st.cfg.lookup = true
    · rw [if_pos l, if_pos (XCfg.index_range h)]
      exact ⟨_, _, rfl, rfl⟩
    · rw [if_neg l]
      exact ⟨_, _, rfl, rfl⟩

/-- the tables of actions are built if and only if every heading has the same number of primitives, provided that primitives end with headings of the environment -/
theorem init_succeeds_iff {s : Setup} (hT : 0 < s.T) (hT' : s.T ≤ 128) (hs : InRange s s.start) (hg : InRange s s.goal) (he : ∀ m ∈ s.prims, 0 ≤ m.endTheta ∧ m.endTheta < s.T) :
    (∃ st, XEnv.init s = .ok st) ↔ Even s.T (s.prims.map (fun m => m.startTheta)) := by
  have hpre : (∃ r, precompute s.T s.cs s.foot s.prims = .ok r) ↔ Even s.T (s.prims.map (fun m => m.startTheta)) := by
    constructor
    · rintro ⟨r, h⟩
      have hk := (precompute_ok h).2.2.2
      refine ⟨s.prims.length / s.T, ?_, fun t ht => by rw [← acts_length s.cs s.foot]; exact hk t ht⟩
      unfold precompute at h
      rw [if_neg (by omega)] at h
      by_cases d : s.prims.length % s.T = 0
      · rw [List.length_map]
        exact (Nat.mul_div_cancel' (Nat.dvd_of_mod_eq_zero d)).symm
      · rw [if_pos d] at h; cases h
    · rintro ⟨k, h1, h2⟩
      rw [List.length_map] at h1
      have hk : ∀ t : Nat, t < s.T → (actsFor s.cs s.foot s.prims t).length = k := fun t ht => by rw [acts_length]; exact h2 t ht
      have hd : s.prims.length / s.T = k := by rw [h1]; exact Nat.mul_div_cancel_left k hT
      unfold precompute
      rw [if_neg (by omega), if_neg (by rw [h1]; simp), hd]
      have e1 : (List.range s.T).any (fun (t : Nat) => decide ((actsFor s.cs s.foot s.prims t).length > k)) = false := by
        rw [List.any_eq_false]
        intro t ht
        rw [hk t (List.mem_range.mp ht)]; simp
      have e2 : (List.range s.T).any (fun (t : Nat) => decide ((actsFor s.cs s.foot s.prims t).length < k)) = false := by
        rw [List.any_eq_false]
        intro t ht
        rw [hk t (List.mem_range.mp ht)]; simp
      have e3 : (allActs s.T (actsFor s.cs s.foot s.prims)).any (fun a => decide (predIdx s.T a < 0 ∨ predIdx s.T a ≥ s.T)) = false := by
        rw [List.any_eq_false]
        intro a ha
        unfold allActs at ha
        rw [List.mem_flatMap] at ha
        obtain ⟨t, _, ha⟩ := ha
        unfold actsFor at ha
        rw [List.mem_mapIdx] at ha
        obtain ⟨i, hi, rfl⟩ := ha
        have hm := List.mem_of_mem_filter (List.getElem_mem hi)
        have := he _ hm
        rw [decide_eq_true_iff]
        unfold predIdx mkAct
        simp only
        rw [XCfg.toChar_id (by omega) (by omega), if_neg (by omega)]
        omega
      have e4 : ((List.range s.T).map (fun (t : Nat) => (actsFor s.cs s.foot s.prims t).length)).foldl max 0 = k := by
        apply foldl_max_const
        · intro x hx
          obtain ⟨t, ht, rfl⟩ := List.mem_map.mp hx
          exact hk t (List.mem_range.mp ht)
        · intro h
          have := congrArg List.length h
          simp at this
          omega
        · omega
      rw [if_neg (by rw [e1]; simp), if_neg (by rw [e3]; simp), if_neg (by rw [e4]; simpa using h1), if_neg (by rw [e2]; simp)]
      exact ⟨_, rfl⟩
  rw [← hpre]
  unfold XEnv.init
  have a1 := hs
  have a2 := hg
  unfold InRange XSpec.InMap at a1 a2
  rw [if_neg (by rw [not_not]; exact ⟨a1.1.1, a1.1.2.1, a1.1.2.2.1, a1.1.2.2.2, a1.2.1, a1.2.2⟩), if_neg (by rw [not_not]; exact ⟨a2.1.1, a2.1.2.1, a2.1.2.2.1, a2.1.2.2.2, a2.2.1, a2.2.2⟩)]
  cases q : precompute s.T s.cs s.foot s.prims with
  | error e => simp
  | ok r =>
    obtain ⟨acts, preds⟩ := r
    simp only [Except.ok.injEq, exists_eq', iff_true]
    have r1 : (fresh s acts preds).cfg.inRange s.start = true := (XCfg.inRange_iff).mpr hs
    obtain ⟨st1, i, g1, c1⟩ := getState_ok (st := fresh s acts preds) r1
    rw [g1]
    simp only
    have r2 : st1.cfg.inRange s.goal = true := by rw [c1]; exact (XCfg.inRange_iff).mpr hg
    obtain ⟨st2, j, g2, -⟩ := getState_ok (st := st1) r2
    rw [g2]
    exact ⟨_, rfl⟩

/-- **C159b** InitializeEnv accepts a map file and a file of motion primitives, both laid out as described, if and only if the second one has the same number of primitives for every heading -/
theorem files_accepted_iff (L : Layout (xytFile w h th o i c csw velw ttw l1 sx sy sth l2 ex ey eth l3 (rows W H cell ++ extra)) tm)
    (N : XNumbers w h th o i c csw velw ttw l1 sx sy sth l2 ex ey eth l3 W H T vo vi vc cs vel tt x0 y0 a0 x1 y1 a1)
    (hs : GridSpec.InMap W H ⌊x0 / cs⌋ ⌊y0 / cs⌋) (he : GridSpec.InMap W H ⌊x1 / cs⌋ ⌊y1 / cs⌋)
    (hcell : ∀ x y : Nat, x < W → y < H → IsInt (cell x y) (val x y) ∧ val x y < 256) (hT : 0 < T) (hT' : T ≤ 128)
    (ho : 0 ≤ vo ∧ vo < 256) (hi : 0 ≤ vi ∧ vi < 256)
    (Lp : Layout (primFile cw tw nw (ps.flatMap PrimText.words ++ extra')) tp) (hc : IsDec cw res) (hf : |res - cs| ≤ 1 / 10000000)
    (ht : IsInt tw T) (hn : IsInt nw ps.length) (hN : ps.length ≤ 2147483647)
    (hp : List.Forall₂ (fun (p : PrimText) (v : Int × RawPrim) => Denotes T p v.1 v.2 ∧ XPrim.checkEnd cs T v.2 = .ok true) ps vs)
    (hst : Utils.contTheta2Disc a0 T < T) (hgo : Utils.contTheta2Disc a1 T < T) :
    (∃ stx, XInit.initFiles foot poly tm tp = .ok stx) ↔ Even T (vs.map (fun v => v.2.startTheta)) := by
  obtain ⟨s, Ds, e⟩ := files_init (foot := foot) (poly := poly) L N hs he hcell hT (by omega) ho hi Lp hc hf ht hn hN hp hst hgo
  have n0 : (0 : Int) ≤ Utils.contTheta2Disc a0 T := (AngleProps.contTheta2Disc_bin (by omega) (by
    rintro rfl
    rw [AngleProps.contTheta2Disc_out_of_range (by omega)] at hst
    omega)).1
  have n1 : (0 : Int) ≤ Utils.contTheta2Disc a1 T := (AngleProps.contTheta2Disc_bin (by omega) (by
    rintro rfl
    rw [AngleProps.contTheta2Disc_out_of_range (by omega)] at hgo
    omega)).1
  have sT : s.T = T := by have := Ds.T_eq; omega
  have key := init_succeeds_iff (s := s) (by omega) (by omega)
    (by
      rw [Ds.start_eq]
      refine ⟨⟨hs.1, by rw [Ds.W_eq]; exact hs.2.1, hs.2.2.1, by rw [Ds.H_eq]; exact hs.2.2.2⟩, n0, by rw [sT]; exact hst⟩)
    (by
      rw [Ds.goal_eq]
      refine ⟨⟨he.1, by rw [Ds.W_eq]; exact he.2.1, he.2.2.1, by rw [Ds.H_eq]; exact he.2.2.2⟩, n1, by rw [sT]; exact hgo⟩)
    (by
      intro m hm
      rw [Ds.prims_eq] at hm
      obtain ⟨r, hr, rfl⟩ := List.mem_map.mp hm
      obtain ⟨v, hv, rfl⟩ := List.mem_map.mp hr
      have : ∀ v ∈ vs, 0 ≤ v.2.endTheta ∧ v.2.endTheta < T := by
        clear e n0 n1 Ds hr hv hm hn hN Lp
        induction hp with
        | nil => simp
        | cons a _ ih =>
          intro v hv
          rcases List.mem_cons.mp hv with rfl | hv
          · obtain ⟨e, _, _, q⟩ := a.1.th
            rw [q]
            have r := UtilsProps.normDiscTheta_residue e (n := T) (by omega)
            exact ⟨r.1, r.2.1⟩
          · exact ih v hv
      rw [sT]
      exact this v hv)
  have m1 : s.prims.map (fun m => m.startTheta) = vs.map (fun v => v.2.startTheta) := by
    rw [Ds.prims_eq, List.map_map, List.map_map]; rfl
  rw [m1, sT] at key
  rw [← key, e]
  cases XEnv.init s with
  | error e => simp [Except.mapError]
  | ok st => simp [Except.mapError]

end
end Sbpl.XFileProps
