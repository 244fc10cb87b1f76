import Verif.Props.XYTAnglesCost
import Verif.Props.XYTAnglesFile
/-!
# From a map file and a file of motion primitives with a list of headings to a plan
-/

namespace Sbpl.XAngProps
open Sbpl Scan FileSpec CfgFileProps CfgFileXProps PrimFileProps GraphSpec PlannerSpec XSpec XEnv XYTARAProps XAngSpec XYTPrimProps XFileProps

/-- the setup that the two files describe, the second one with a list of headings -/
structure DescribedSet (foot : ℚ → ℚ × ℚ × ℚ → List (Int × Int)) (poly : Bool) (W H : Nat) (T vo vi vc : Int) (cs vel tt : ℚ) (start goal : XKey) (val : Int → Int → Nat)
    (dirs : List ℚ) (raws : List RawPrim) (s : Setup) : Prop where
  W_eq : s.W = W
  H_eq : s.H = H
  T_eq : (s.T : Int) = T
  cs_eq : s.cs = cs
  obs_eq : (s.obs : Int) = vo
  inscr_eq : (s.inscr : Int) = vi
  circ_eq : (s.circ : Int) = max vc 0
  poly_eq : s.poly = poly
  foot_eq : s.foot = foot cs
  prims_eq : s.prims = raws.map (XPrim.mkPrimSet s.T dirs vel tt)
  start_eq : s.start = start
  goal_eq : s.goal = goal
  cell_eq : ∀ x y : Int, 0 ≤ x → x < W → 0 ≤ y → y < H → s.map (x + y * W) = val x y

section
variable {w h : Word} {th : List Word} {o i c csw velw ttw l1 sx sy sth l2 ex ey eth l3 : Word} {W H : Nat} {T : Nat} {vo vi vc : Int} {cs vel tt x0 y0 a0 x1 y1 a1 : ℚ}
variable {tm tp : Text} {cell : Nat → Nat → Word} {val : Int → Int → Nat} {extra extra' : List Word} {cw rw' tw nw : Word} {aws : List Word} {as : List ℚ} {res g : ℚ}
variable {ps : List PrimSetText} {vs : List (Int × RawPrim)} {foot : ℚ → ℚ × ℚ × ℚ → List (Int × Int)} {poly : Bool}

/-- InitializeEnv with a map file and a file of motion primitives with a list of headings builds the environment that the files describe -/
theorem files_init_set (L : Layout (xytFile w h th o i c csw velw ttw l1 sx sy sth l2 ex ey eth l3 (rows W H cell ++ extra)) tm)
    (N : XNumbers w h th o i c csw velw ttw l1 sx sy sth l2 ex ey eth l3 W H T vo vi vc cs vel tt x0 y0 a0 x1 y1 a1)
    (hs : GridSpec.InMap W H ⌊x0 / cs⌋ ⌊y0 / cs⌋) (he : GridSpec.InMap W H ⌊x1 / cs⌋ ⌊y1 / cs⌋)
    (hcell : ∀ x y : Nat, x < W → y < H → IsInt (cell x y) (val x y) ∧ val x y < 256) (hT' : T ≤ 2147483647)
    (ho : 0 ≤ vo ∧ vo < 256) (hi : 0 ≤ vi ∧ vi < 256)
    (Lp : Layout (primSetFile cw rw' tw nw aws (ps.flatMap PrimSetText.words ++ extra')) tp) (hc : IsDec cw res) (hf : |res - cs| ≤ 1 / 10000000) (hg : IsDec rw' g)
    (ht : IsInt tw T) (ha : List.Forall₂ IsDec aws as) (hal : aws.length = T) (HS : HeadingSet T (as ++ [2 * Utils.PI_CONST]))
    (hn : IsInt nw ps.length) (hN : ps.length ≤ 2147483647)
    (hp : List.Forall₂ (fun (p : PrimSetText) (v : Int × RawPrim) => DenotesSet T p v.1 v.2 ∧ XPrim.checkEndSet cs T (as ++ [2 * Utils.PI_CONST]) v.2 = .ok true) ps vs) :
    ∃ s, ∃ i j : Nat, Nearest T (as ++ [2 * Utils.PI_CONST]) a0 i ∧ Nearest T (as ++ [2 * Utils.PI_CONST]) a1 j ∧
      DescribedSet foot poly W H T vo vi vc cs vel tt (⌊x0 / cs⌋, ⌊y0 / cs⌋, (i : Int)) (⌊x1 / cs⌋, ⌊y1 / cs⌋, (j : Int)) val (as ++ [2 * Utils.PI_CONST]) (vs.map Prod.snd) s ∧
      XInit.initSet foot poly tm tp = ((XEnv.init s).map (fun st => (st, as ++ [2 * Utils.PI_CONST]))).mapError .env := by
  obtain ⟨f, rest, r, r1, r2, r3, r4, r5, r6, r7, r8, r9, r10, r11, r12, r13, r14, r15⟩ := xyt_file_read (val := fun x y => (val x y : Int)) L N hs he
    (fun x y hx hy => ⟨(hcell x y hx hy).1, by have := (hcell x y hx hy).2; unfold IntRange; omega⟩)
  obtain ⟨rest', q, _⟩ := prims_set_read (T := T) Lp hc hf hg ht hT' ha hal hn hN hp
  have hTn : f.T.toNat = T := by rw [r3]; simp
  obtain ⟨n0, e0, k0⟩ := heading_ok HS a0
  obtain ⟨n1, e1, k1⟩ := heading_ok HS a1
  have hT := HS.pos
  refine ⟨XInit.setupSet foot poly f (as ++ [2 * Utils.PI_CONST]) (vs.map Prod.snd) n0 n1, n0, n1, k0, k1, ⟨r1, r2, ?_, r7, ?_, ?_, ?_, rfl, ?_, ?_, ?_, ?_, ?_⟩, ?_⟩
  · show ((f.T.toNat : Nat) : Int) = T
    rw [hTn]
  · show (f.obs : Int) = vo
    rw [r4]; omega
  · show (f.inscr : Int) = vi
    rw [r5]; omega
  · show ((f.circ.toNat : Nat) : Int) = _
    rw [r6]; omega
  · show foot f.cs = _
    rw [r7]
  · show _ = _
    unfold XInit.setupSet
    simp only [r8, r9]
  · show (f.start.1, f.start.2, _) = _
    rw [r10]
  · show (f.goal.1, f.goal.2, _) = _
    rw [r12]
  · intro x y hx0 hx hy0 hy
    show f.grid ((x + y * W) % f.W) ((x + y * W) / f.W) = _
    have hW : (0 : Int) < W := by omega
    have m1 : (x + y * W) % (W : Int) = x := by rw [Int.add_mul_emod_self_right, Int.emod_eq_of_lt hx0 hx]
    have m2 : (x + y * W) / (W : Int) = y := by rw [Int.add_mul_ediv_right _ _ (by omega), Int.ediv_eq_zero_of_lt hx0 hx, zero_add]
    rw [r1, m1, m2]
    obtain ⟨x', rfl⟩ := Int.eq_ofNat_of_zero_le hx0
    obtain ⟨y', rfl⟩ := Int.eq_ofNat_of_zero_le hy0
    have := r15 x' y' (by omega) (by omega) (by omega) (by have := (hcell x' y' (by omega) (by omega)).2; omega)
    exact_mod_cast this
  · unfold XInit.initSet
    rw [r]
    simp only
    rw [if_neg (by omega), hTn, r7, q]
    simp only
    rw [r11, r13, e0, e1]
    simp only
    rw [if_neg (by rw [not_not]; exact k0.1), if_neg (by rw [not_not]; exact k1.1)]
    cases XEnv.init (XInit.setupSet foot poly f (as ++ [2 * Utils.PI_CONST]) (vs.map Prod.snd) n0 n1) <;> rfl

theorem described_ok_set {vo vi vc : Int} {start goal : XKey} {dirs : List ℚ} {raws : List RawPrim} {s : Setup}
    (D : DescribedSet foot poly W H T vo vi vc cs vel tt start goal val dirs raws s) (hT : T ≤ 128) (hp : PrimsFit raws) : SetupOk s := by
  refine ⟨by have := D.T_eq; omega, ?_⟩
  intro m hm
  rw [D.prims_eq] at hm
  obtain ⟨r, hr, rfl⟩ := List.mem_map.mp hm
  exact hp r hr

/-- **C188** The lattice is initialised from a map file and a file of motion primitives with a list of headings; cells are then changed, starts and goals set and states queried in any way, and ARA*
is run on it: a path it finds is a chain of primitives of the file, collision-free with the cell costs of that moment and the thresholds of the map file, from the state of the start to that of the
goal, of at most the cost reported; if the primitives begin and end at centres of cells, this cost is at least the time the straight line takes. -/
theorem files_to_plan_set (L : Layout (xytFile w h th o i c csw velw ttw l1 sx sy sth l2 ex ey eth l3 (rows W H cell ++ extra)) tm)
    (N : XNumbers w h th o i c csw velw ttw l1 sx sy sth l2 ex ey eth l3 W H T vo vi vc cs vel tt x0 y0 a0 x1 y1 a1)
    (hs : GridSpec.InMap W H ⌊x0 / cs⌋ ⌊y0 / cs⌋) (he : GridSpec.InMap W H ⌊x1 / cs⌋ ⌊y1 / cs⌋)
    (hcell : ∀ x y : Nat, x < W → y < H → IsInt (cell x y) (val x y) ∧ val x y < 256) (hT' : T ≤ 128)
    (ho : 0 ≤ vo ∧ vo < 256) (hi : 0 ≤ vi ∧ vi < 256)
    (Lp : Layout (primSetFile cw rw' tw nw aws (ps.flatMap PrimSetText.words ++ extra')) tp) (hc : IsDec cw res) (hf : |res - cs| ≤ 1 / 10000000) (hg : IsDec rw' g)
    (ht : IsInt tw T) (ha : List.Forall₂ IsDec aws as) (hal : aws.length = T) (HS : HeadingSet T (as ++ [2 * Utils.PI_CONST]))
    (hn : IsInt nw ps.length) (hN : ps.length ≤ 2147483647)
    (hp : List.Forall₂ (fun (p : PrimSetText) (v : Int × RawPrim) => DenotesSet T p v.1 v.2 ∧ XPrim.checkEndSet cs T (as ++ [2 * Utils.PI_CONST]) v.2 = .ok true) ps vs)
    (fit : PrimsFit (vs.map Prod.snd)) {stx : XEnv} {dirs : List ℚ} (hinit : XInit.initSet foot poly tm tp = .ok (stx, dirs)) :
    dirs = as ++ [2 * Utils.PI_CONST] ∧ ∃ s, ∃ i j : Nat, Nearest T dirs a0 i ∧ Nearest T dirs a1 j ∧
      DescribedSet foot poly W H T vo vi vc cs vel tt (⌊x0 / cs⌋, ⌊y0 / cs⌋, (i : Int)) (⌊x1 / cs⌋, ⌊y1 / cs⌋, (j : Int)) val dirs (vs.map Prod.snd) s ∧
      HistSet s dirs [] stx ∧ (∀ q : Int × Int, XSpec.InMap s q → costs s [] q.1 q.2 = val q.1 q.2) ∧
      ∀ {xops : List XEnv.Op} {stx' : XEnv}, HistSet s dirs xops stx' →
      ∀ {env0 : PEnv} {fwd : Bool} {D ie fe de : Nat} {fs : Bool} {ops : List ARA.Op} {st st' : ARA} {res : ARA.Result} {a b : Nat} {bs : List Nat} {ka kb : XKey}
        {num : XKey → Nat} {den : Nat → Option XKey} {hg hs : XKey → XKey → Int}, EnvOk env0 → (∀ op ∈ ops, OpOk op) →
        (ARA.init env0 fwd D ie fe de fs).run ops = some st → lastStart ops = some a → lastGoal ops = some b → bs ≠ [] →
        st.replan bs = .ok (st', res) → XNumbering s num den → lastEnv env0 ops = xytPEnv stx'.cfg num den hg hs →
        den a = some ka → den b = some kb →
        (res.found = true → ∃ ks n, res.path.map den = ks.map some ∧ ks.head? = some ka ∧ ks.getLast? = some kb ∧ LPath s (costs s xops) ks n ∧ n ≤ res.cost ∧
          (0 < vel → 0 ≤ tt → (∀ v ∈ vs, RawExact cs v.2 ∧ 1 ≤ v.2.mult) →
            1000 * Real.sqrt ((((centreOf s kb).1 - (centreOf s ka).1) * ((centreOf s kb).1 - (centreOf s ka).1) +
              ((centreOf s kb).2 - (centreOf s ka).2) * ((centreOf s kb).2 - (centreOf s ka).2) : ℚ) : ℝ) ≤ res.cost * (vel : ℝ))) ∧
        (∀ {e n m k : Nat}, res.finalEps = some e → 0 < D → D ≤ e → 0 < vel → 0 ≤ tt → (∀ v ∈ vs, RawExact cs v.2 ∧ 1 ≤ v.2.mult) → Followable s vel → CostAtLeast s m → Slack vel k →
          (∀ g, InRange s g → HeurFrom s vel (costs s xops) g (hg g)) → (∀ g, InRange s g → HeurFrom s vel (costs s xops) g (hs g)) →
          LWalk s (costs s xops) ka kb n →
          res.found = true ∧ D * m * res.cost ≤ (e * m + e * k + D) * n ∧ ((∃ z : Nat, vel = z) → e = D → res.cost ≤ n)) := by
  obtain ⟨s, i', j', ki, kj, Ds, e⟩ := files_init_set (foot := foot) (poly := poly) L N hs he hcell (by omega) ho hi Lp hc hf hg ht ha hal HS hn hN hp
  have ok := described_ok_set Ds hT' fit
  have sT : s.T = T := by have := Ds.T_eq; omega
  rw [hinit] at e
  have ei : ∃ st0, XEnv.init s = .ok st0 ∧ stx = st0 ∧ dirs = as ++ [2 * Utils.PI_CONST] := by
    cases q : XEnv.init s with
    | error _ => rw [q] at e; cases e
    | ok st => rw [q] at e; cases e; exact ⟨_, rfl, rfl, rfl⟩
  obtain ⟨st0, q, rfl, rfl⟩ := ei
  refine ⟨rfl, s, i', j', ki, kj, Ds, ⟨ok, by rw [sT]; exact HS, by simp, stx, q, rfl⟩, ?_, ?_⟩
  · rintro ⟨x, y⟩ ⟨h1, h2, h3, h4⟩
    rw [Ds.W_eq] at h2
    rw [Ds.H_eq] at h4
    show s.map (x + y * s.W) = _
    rw [Ds.W_eq]
    exact Ds.cell_eq x y h1 h2 h3 h4
  intro xops stx' hx' env0 fwd D ie fe de fs ops st st' res a b bs ka kb num den hg hs' henv hok hrun hsa hgb hbs hrep XN hmap hda hdb
  obtain ⟨xops', hx, hco, -⟩ := angles_hist hx'
  have raws : ∀ (P : RawPrim → Prop), (∀ v ∈ vs, P v.2) → ∀ r ∈ vs.map Prod.snd, P r := by
    intro P h r hr
    obtain ⟨v, hv, rfl⟩ := List.mem_map.mp hr
    exact h v hv
  refine ⟨?_, ?_⟩
  · intro hfound
    obtain ⟨ks, n, k1, k2, k3, _, k4, k5⟩ := ara_xyt_path henv hok hrun hsa hgb hbs hrep hfound hx XN hmap hda hdb
    rw [hco] at k4
    refine ⟨ks, n, k1, k2, k3, k4, k5, ?_⟩
    intro hv htt hex
    have c1 := path_cost_covers_set hv htt Ds.prims_eq (by rw [Ds.cs_eq]; exact raws (fun r => RawExact cs r ∧ 1 ≤ r.mult) hex) k4 k2 k3
    refine le_trans c1 ?_
    have : (n : ℝ) ≤ res.cost := by exact_mod_cast k5
    have hv' : (0 : ℝ) ≤ vel := by exact_mod_cast hv.le
    exact mul_le_mul_of_nonneg_right this hv'
  · intro e' n m k hfe hD hDe hv htt hex hw hm hk hG hS wk
    rw [← hco] at hG hS wk
    exact ara_xyt_bound henv hok hrun hsa hgb hbs hrep hfe hD hDe hx XN hmap hda hdb hv
      (not_too_fast_set hv htt Ds.prims_eq (by rw [Ds.cs_eq]; exact raws (fun r => RawExact cs r ∧ 1 ≤ r.mult) hex)) hw hm hk hG hS wk

/-- **C188b** InitializeEnv accepts a map file and a file of motion primitives with a list of headings, both laid out as described, if and only if the second one has the same number of primitives
for every heading -/
theorem files_accepted_iff_set (L : Layout (xytFile w h th o i c csw velw ttw l1 sx sy sth l2 ex ey eth l3 (rows W H cell ++ extra)) tm)
    (N : XNumbers w h th o i c csw velw ttw l1 sx sy sth l2 ex ey eth l3 W H T vo vi vc cs vel tt x0 y0 a0 x1 y1 a1)
    (hs : GridSpec.InMap W H ⌊x0 / cs⌋ ⌊y0 / cs⌋) (he : GridSpec.InMap W H ⌊x1 / cs⌋ ⌊y1 / cs⌋)
    (hcell : ∀ x y : Nat, x < W → y < H → IsInt (cell x y) (val x y) ∧ val x y < 256) (hT' : T ≤ 128)
    (ho : 0 ≤ vo ∧ vo < 256) (hi : 0 ≤ vi ∧ vi < 256)
    (Lp : Layout (primSetFile cw rw' tw nw aws (ps.flatMap PrimSetText.words ++ extra')) tp) (hc : IsDec cw res) (hf : |res - cs| ≤ 1 / 10000000) (hg : IsDec rw' g)
    (ht : IsInt tw T) (ha : List.Forall₂ IsDec aws as) (hal : aws.length = T) (HS : HeadingSet T (as ++ [2 * Utils.PI_CONST]))
    (hn : IsInt nw ps.length) (hN : ps.length ≤ 2147483647)
    (hp : List.Forall₂ (fun (p : PrimSetText) (v : Int × RawPrim) => DenotesSet T p v.1 v.2 ∧ XPrim.checkEndSet cs T (as ++ [2 * Utils.PI_CONST]) v.2 = .ok true) ps vs) :
    (∃ stx, XInit.initSet foot poly tm tp = .ok stx) ↔ Even T (vs.map (fun v => v.2.startTheta)) := by
  obtain ⟨s, i', j', ki, kj, Ds, e⟩ := files_init_set (foot := foot) (poly := poly) L N hs he hcell (by omega) ho hi Lp hc hf hg ht ha hal HS hn hN hp
  have sT : s.T = T := by have := Ds.T_eq; omega
  have hT := HS.pos
  have key := init_succeeds_iff (s := s) (by omega) (by omega)
    (by
      rw [Ds.start_eq]
      refine ⟨⟨hs.1, by rw [Ds.W_eq]; exact hs.2.1, hs.2.2.1, by rw [Ds.H_eq]; exact hs.2.2.2⟩, by simp, ?_⟩
      rw [sT]; have := ki.1; simp only; omega)
    (by
      rw [Ds.goal_eq]
      refine ⟨⟨he.1, by rw [Ds.W_eq]; exact he.2.1, he.2.2.1, by rw [Ds.H_eq]; exact he.2.2.2⟩, by simp, ?_⟩
      rw [sT]; have := kj.1; simp only; omega)
    (by
      intro m hm
      rw [Ds.prims_eq] at hm
      obtain ⟨r, hr, rfl⟩ := List.mem_map.mp hm
      obtain ⟨v, hv, rfl⟩ := List.mem_map.mp hr
      have hc : XPrim.checkEndSet cs T (as ++ [2 * Utils.PI_CONST]) v.2 = .ok true := by
        clear e Ds hr hm hn hN Lp
        induction hp with
        | nil => simp at hv
        | cons a _ ih =>
          rcases List.mem_cons.mp hv with rfl | hv
          · exact a.2
          · exact ih hv
      obtain ⟨_, i, -, -, -, e4, n⟩ := checkEnd_set_ok hc HS
      rw [sT]
      show 0 ≤ v.2.endTheta ∧ v.2.endTheta < T
      have := n.1
      omega)
  have m1 : s.prims.map (fun m => m.startTheta) = vs.map (fun v => v.2.startTheta) := by
    rw [Ds.prims_eq, List.map_map, List.map_map]; rfl
  rw [m1, sT] at key
  rw [← key, e]
  cases XEnv.init s with
  | error e => simp [Except.mapError, Except.map]
  | ok st => simp [Except.mapError, Except.map]

end
end Sbpl.XAngProps
