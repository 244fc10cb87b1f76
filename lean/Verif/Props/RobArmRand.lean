import Verif.Props.RobArmARA
import Verif.Spec.RobArmRand
/-!
# Random successors of the robot arm (C119)
-/
set_option linter.unusedSectionVars false

namespace Sbpl.ArmRandProps
open RobArm ArmSpec ArmPr ArmProps ArmARAProps

variable {K : Type} [Field K] [LinearOrder K] [IsStrictOrderedRing K] [FloorRing K] {c : Cfg K}

theorem u16_lt {n : Nat} (h : n < 65536) : u16 (n : Int) = n := by unfold u16; omega

theorem randJoint_ok {vals k off : Nat} {far up : Bool} (h30 : 30 ≤ vals) (h16 : vals ≤ 65536) (hk : k < vals) (ho : off ≤ 30) :
    randJoint vals k far up off < vals ∧ Within 30 vals k (randJoint vals k far up off) := by
  have hm : ∀ n, n % vals < vals := fun n => Nat.mod_lt _ (by omega)
  have upc : ∀ d, d ≤ 30 → u16 (((k + d) % vals : Nat) : Int) < vals ∧ Within 30 vals k (u16 (((k + d) % vals : Nat) : Int)) := by
    intro d hd
    have := hm (k + d)
    rw [u16_lt (by omega)]
    exact ⟨this, d, hd, .inl (Nat.mod_mod _ _).symm⟩
  have dnc : ∀ d, d ≤ 30 → k < d → u16 ((k : Int) + vals - d) < vals ∧ Within 30 vals k (u16 ((k : Int) + vals - d)) := by
    intro d hd hkd
    have e : ((k : Int) + vals - d) = ((k + vals - d : Nat) : Int) := by omega
    rw [e, u16_lt (by omega)]
    refine ⟨by omega, d, hd, .inr ?_⟩
    rw [show k + vals - d + d = k + vals by omega, Nat.add_mod_right]
  have dn2 : ∀ d, d ≤ 30 → ¬ k < d → k - d < vals ∧ Within 30 vals k (k - d) := by
    intro d hd hkd
    exact ⟨by omega, d, hd, .inr (by rw [show k - d + d = k by omega])⟩
  unfold randJoint longDist
  cases far with
  | true =>
    rw [if_pos rfl]
    cases up with
    | true => rw [if_pos rfl]; exact upc 30 (by omega)
    | false =>
      rw [if_neg (by decide)]
      split
      · next h => exact dnc 30 (by omega) h
      · next h => exact dn2 30 (by omega) h
  | false =>
    rw [if_neg (by decide)]
    split
    · exact upc off ho
    · split
      · next h => exact dnc off ho h
      · next h => exact dn2 off ho h

theorem randCoord_ok (maxi : Nat) {ls : List (Link K)} {ks : List Nat} (hc : List.Forall₂ (fun (l : Link K) v => v < l.vals) ls ks) :
    ∀ (ds : List (Bool × Nat)) (i : Nat), (∀ l ∈ ls, 30 ≤ l.vals ∧ l.vals ≤ 65536) → ds.length = ls.length → (∀ x ∈ ds, x.2 ≤ 30) →
    List.Forall₂ (fun (l : Link K) v => v < l.vals) ls (randCoord maxi i ls ks ds) ∧
    ∀ (j : Nat) (l : Link K) (a b : Nat), ls[j]? = some l → ks[j]? = some a → (randCoord maxi i ls ks ds)[j]? = some b → Within 30 l.vals a b := by
  induction hc with
  | nil => intro ds i _ _ _; exact ⟨by cases ds <;> exact .nil, fun j l a b h => by simp at h⟩
  | @cons l k ls ks hk _ ih =>
    intro ds i hv hlen hd
    match ds, hlen with
    | d :: ds, hlen =>
      obtain ⟨h30, h16⟩ := hv l (List.mem_cons_self ..)
      obtain ⟨r1, r2⟩ := randJoint_ok (far := decide (i = maxi)) (up := d.1) h30 h16 hk (hd d (List.mem_cons_self ..))
      obtain ⟨i1, i2⟩ := ih ds (i + 1) (fun l h => hv l (List.mem_cons_of_mem _ h)) (by simpa using hlen) (fun x h => hd x (List.mem_cons_of_mem _ h))
      refine ⟨.cons r1 i1, ?_⟩
      intro j l' a b h1 h2 h3
      unfold randCoord at h3
      cases j with
      | zero =>
        simp only [List.getElem?_cons_zero, Option.some.injEq] at h1 h2 h3
        rw [← h1, ← h2, ← h3]; exact r2
      | succ j =>
        rw [List.getElem?_cons_succ] at h1 h2 h3
        exact i2 j l' a b h1 h2 h3

theorem dist_motion : ∀ {ks : List (List Nat)} {k l : List Nat} {o : Nat × Nat} {u v : Nat}, CfgOk c → c.links ≠ [] → FineSteps c → Canon c k → Motion c (k :: ks) →
    (k :: ks).getLast? = some l → (∀ p, InMap c p → ∃ n, IsDist c o p n) → IsDist c o (c.endCell k) u → IsDist c o (c.endCell l) v → u ≤ v + ks.length := by
  intro ks
  induction ks with
  | nil =>
    intro k l o u v ok hne fine hc hm hl _ hu hv
    cases hl
    have := dist_step hu hv (.inl rfl)
    rcases hu with ⟨s1, m1⟩ | ⟨e1, n1⟩ <;> rcases hv with ⟨s2, m2⟩ | ⟨e2, n2⟩
    · exact (m1 _ s2).trans (by simp)
    · exact absurd s1 (n2 _)
    · exact absurd s2 (n1 _)
    · omega
  | cons k' ks ih =>
    intro k l o u v ok hne fine hc hm hl ex hu hv
    obtain ⟨vk, ht, hm'⟩ := hm
    have vk' := motion_head hm'
    obtain ⟨w, hw⟩ := ex _ (endCell_valid ok hne vk').1
    have h1 := dist_step hu hw (cell_step ok hne fine hc ht vk vk')
    have h2 := ih ok hne fine (Turned.canon ok.vals hc ht) hm' (by simpa using hl) ex hw hv
    simp only [List.length_cons]
    omega

theorem prefix_get {t t' : List Entry} (hp : t <+: t') {n : Nat} {x : Entry} (hx : t[n]? = some x) : t'[n]? = some x := by
  obtain ⟨r, hr⟩ := hp
  rw [← hr, List.getElem?_append_left (List.getElem?_eq_some_iff.mp hx).1]; exact hx

/-- what the loop does -/
theorem randLoop_spec (ok : CfgOk c) (many : ManyVals c) {n : Nat} {x : Entry} (hcx : Canon c x.coord) (hid : x.id = n) :
    ∀ (ds : List Draw) {e : Env K} (acc : List (Nat × Nat)), EInv c e → e.table[n]? = some x → (∀ d ∈ ds, DrawOk c d) →
    ∃ e' l, Env.randLoop x ds e acc = .ok (e', acc ++ l) ∧ EInv c e' ∧ e.table <+: e'.table ∧ e'.heur = e.heur ∧
      ∀ t h, (t, h) ∈ l → ∃ k, Canon c k ∧ Valid c k ∧ Stands c e' t k ∧ (∃ y, e'.table[t]? = some y ∧ h = e.heur (ind c.W (y.ex, y.ey)) (ind c.W (x.ex, x.ey))) ∧
        inReach (x.ex, x.ey) (c.endCell k) = true ∧
        ∀ (j : Nat) (l : Link K) (a b : Nat), c.links[j]? = some l → x.coord[j]? = some a → k[j]? = some b → Within 30 l.vals a b := by
  intro ds
  induction ds with
  | nil => intro e acc i _ _; exact ⟨e, [], by simp [Env.randLoop], i, List.prefix_refl _, rfl, fun _ _ h => nomatch h⟩
  | cons d ds ih =>
    intro e acc i hx hd
    have hd' : ∀ d ∈ ds, DrawOk c d := fun d h => hd d (List.mem_cons_of_mem _ h)
    obtain ⟨dl, d30⟩ := hd d (List.mem_cons_self ..)
    obtain ⟨hck, hw⟩ := randCoord_ok d.maxi hcx d.joints 0 many dl d30
    have hck : Canon c _ := hck
    unfold Env.randLoop
    rw [i.cfg]
    generalize hk : randCoord d.maxi 0 c.links x.coord d.joints = k at hck hw
    dsimp only
    rcases isValid_correct ok (Canon.isConf hck) with ⟨ev, hv⟩ | ⟨ev, hv⟩
    · rw [ev]
      dsimp only
      by_cases hr : inReach (x.ex, x.ey) (c.endCell k) = false
      · rw [if_pos hr]
        exact ih acc i hx hd'
      · rw [if_neg hr]
        obtain ⟨i1, p1, h1, st⟩ := randId_spec i hck hv
        have hx1 := prefix_get p1 hx
        -- the successor has an entry
        have hy : ∃ y, (e.randId k).1.table[(e.randId k).2]? = some y := by
          unfold Stands at st
          split at st
          · rw [st]; exact ⟨_, i1.goal⟩
          · obtain ⟨_, y, hy, _⟩ := st; exact ⟨y, hy⟩
        obtain ⟨y, hy⟩ := hy
        have hft : (e.randId k).1.fromToHeuristic x.id (e.randId k).2 = .ok (e.heur (ind c.W (y.ex, y.ey)) (ind c.W (x.ex, x.ey))) := by
          unfold Env.fromToHeuristic
          rw [hid, hx1, hy]
          dsimp only
          rw [i1.cfg, h1]
        rw [hft]
        dsimp only
        obtain ⟨e', l, e1, i2, p2, h2, hl⟩ := ih (acc ++ [((e.randId k).2, e.heur (ind c.W (y.ex, y.ey)) (ind c.W (x.ex, x.ey)))]) i1 hx1 hd'
        refine ⟨e', _ :: l, by rw [e1, List.append_assoc]; rfl, i2, p1.trans p2, h2.trans h1, ?_⟩
        intro t h hm
        rcases List.mem_cons.mp hm with hm | hm
        · cases hm
          exact ⟨k, hck, hv, st.mono p2, ⟨y, prefix_get p2 hy, rfl⟩, by simpa using hr, hw⟩
        · obtain ⟨k', a1, a2, a3, a4, a5, a6⟩ := hl t h hm
          rw [h1] at a4
          exact ⟨k', a1, a2, a3, a4, a5, a6⟩
    · rw [ev]
      dsimp only
      exact ih acc i hx hd'

/-- what GetRandomSuccsatDistance does -/
theorem randSuccs_spec (ok : CfgOk c) (many : ManyVals c) (hs : Canon c c.startCoord) (vs : Valid c c.startCoord) {e : Env K} (i : EInv c e) {n : Nat} {x : Entry}
    (hn : n ≠ 1) (hx : e.table[n]? = some x) {ds : List Draw} (hd : ∀ d ∈ ds, DrawOk c d) :
    ∃ e' l, e.randSuccs n ds = .ok (e', l) ∧ EInv c e' ∧ e.table <+: e'.table ∧ e'.heur = e.heur ∧
      ∀ t h, (t, h) ∈ l → (∃ y, e'.table[t]? = some y ∧ h = e.heur (ind c.W (y.ex, y.ey)) (ind c.W (x.ex, x.ey))) ∧
        ((t = 1 ∧ inReach (c.gx, c.gy) (x.ex, x.ey) = true) ∨ ∃ k, Canon c k ∧ Valid c k ∧ Stands c e' t k ∧ inReach (x.ex, x.ey) (c.endCell k) = true ∧
        ∀ (j : Nat) (l : Link K) (a b : Nat), c.links[j]? = some l → x.coord[j]? = some a → k[j]? = some b → Within 30 l.vals a b) := by
  have hid := i.ids n x hx
  obtain ⟨hcx, _, _⟩ := entry_ok i hs vs hn hx
  obtain ⟨e', l, e1, i2, p2, h2, hl⟩ := randLoop_spec ok many hcx hid ds [] i hx hd
  unfold Env.randSuccs
  rw [if_neg (show ¬ n = goalId from hn), hx]
  dsimp only
  rw [e1]
  dsimp only
  rw [i.cfg]
  have old : ∀ t h, (t, h) ∈ l → (∃ y, e'.table[t]? = some y ∧ h = e.heur (ind c.W (y.ex, y.ey)) (ind c.W (x.ex, x.ey))) ∧
        ((t = 1 ∧ inReach (c.gx, c.gy) (x.ex, x.ey) = true) ∨ ∃ k, Canon c k ∧ Valid c k ∧ Stands c e' t k ∧ inReach (x.ex, x.ey) (c.endCell k) = true ∧
        ∀ (j : Nat) (l : Link K) (a b : Nat), c.links[j]? = some l → x.coord[j]? = some a → k[j]? = some b → Within 30 l.vals a b) := by
    intro t h hm
    obtain ⟨k, a1, a2, a3, a4, a5, a6⟩ := hl t h hm
    exact ⟨a4, .inr ⟨k, a1, a2, a3, a5, a6⟩⟩
  by_cases hr : inReach (c.gx, c.gy) (x.ex, x.ey) = true
  · rw [if_pos hr]
    have hft : e'.fromToHeuristic x.id goalId = .ok (e.heur (ind c.W (c.gx, c.gy)) (ind c.W (x.ex, x.ey))) := by
      unfold Env.fromToHeuristic
      rw [hid, prefix_get p2 hx, show e'.table[goalId]? = _ from i2.goal]
      dsimp only
      rw [i2.cfg, h2]
    rw [hft]
    refine ⟨e', _, rfl, i2, p2, h2, ?_⟩
    intro t h hm
    rcases List.mem_append.mp hm with hm | hm
    · exact old t h (by simpa using hm)
    · rw [List.mem_singleton] at hm
      cases hm
      exact ⟨⟨_, i2.goal, rfl⟩, .inl ⟨rfl, hr⟩⟩
  · rw [if_neg hr]
    exact ⟨e', _, rfl, i2, p2, h2, fun t h hm => old t h (by simpa using hm)⟩

theorem calls_inv (ok : CfgOk c) (hne : c.links ≠ []) (fine : FineSteps c) (many : ManyVals c) (hs : Canon c c.startCoord) (vs : Valid c c.startCoord) (calls : List Call) :
    ∀ {e e' : Env K}, EInv c e → (∀ x ∈ calls, CallOk c x) → e.calls calls = .ok e' → EInv c e' ∧ e'.heur = e.heur := by
  induction calls with
  | nil => intro e e' i _ h; cases h; exact ⟨i, rfl⟩
  | cons a calls ih =>
    intro e e' i hok h
    have hok' : ∀ x ∈ calls, CallOk c x := fun x h => hok x (List.mem_cons_of_mem _ h)
    cases a with
    | succs n =>
      unfold Env.calls at h
      by_cases hn : n = 1
      · have : e.getSuccs n = .ok (e, []) := by unfold Env.getSuccs; rw [if_pos (show n = goalId from hn)]
        rw [this] at h
        exact ih i hok' h
      · cases hx : e.table[n]? with
        | none =>
          have : e.getSuccs n = .error .badId := by unfold Env.getSuccs; rw [if_neg (show ¬ n = goalId from hn), hx]
          rw [this] at h; cases h
        | some x =>
          obtain ⟨e1, l, h1, i1, _, hh, _⟩ := getSuccs_spec ok hne fine hs vs i hn hx
          rw [h1] at h
          obtain ⟨i2, h2⟩ := ih i1 hok' h
          exact ⟨i2, h2.trans hh⟩
    | rand n ds =>
      unfold Env.calls at h
      by_cases hn : n = 1
      · have : e.randSuccs n ds = .ok (e, []) := by unfold Env.randSuccs; rw [if_pos (show n = goalId from hn)]
        rw [this] at h
        exact ih i hok' h
      · cases hx : e.table[n]? with
        | none =>
          have : e.randSuccs n ds = .error .badId := by unfold Env.randSuccs; rw [if_neg (show ¬ n = goalId from hn), hx]
          rw [this] at h; cases h
        | some x =>
          obtain ⟨e1, l, h1, i1, _, hh, _⟩ := randSuccs_spec ok many hs vs i hn hx (hok (.rand n ds) (List.mem_cons_self ..))
          rw [h1] at h
          obtain ⟨i2, h2⟩ := ih i1 hok' h
          exact ⟨i2, h2.trans hh⟩

/-- **C119** GetRandomSuccsatDistance of a state other than the goal, in any environment reached by GetSuccs and GetRandomSuccsatDistance calls, if every joint has at least
30 values: whatever the random numbers are, it succeeds; every listed state is the goal or the state of a valid configuration in which every joint is at most 30 steps away and
the end effector at most 30 cells; and its CLow value is at most the number of moves of every motion to a configuration that the state stands for (if the configuration with all
joints 0 is harmless). -/
theorem rand_correct (ok : CfgOk c) (hne : c.links ≠ []) (fine : FineSteps c) (many : ManyVals c) (hs : Canon c c.startCoord) {e : Env K} (hr : ReachedR c e)
    {n : Nat} {x : Entry} (hn : n ≠ 1) (hx : e.table[n]? = some x) {ds : List Draw} (hd : ∀ d ∈ ds, DrawOk c d) :
    ∃ e' l, e.randSuccs n ds = .ok (e', l) ∧ e.table <+: e'.table ∧ ∀ t clow, (t, clow) ∈ l →
      (t = 1 ∨ ∃ k, Canon c k ∧ Valid c k ∧ StandsFor c e' t k ∧
        (∀ (j : Nat) (l : Link K) (a b : Nat), c.links[j]? = some l → x.coord[j]? = some a → k[j]? = some b → Within 30 l.vals a b) ∧
        ∃ p q : Nat × Nat, PointIn c (effector c x.coord) p ∧ PointIn c (effector c k) q ∧ |(p.1 : Int) - q.1| ≤ 30 ∧ |(p.2 : Int) - q.2| ≤ 30) ∧
      (ZeroHarmless c → ∀ ks l, Motion c (x.coord :: ks) → (x.coord :: ks).getLast? = some l → StandsFor c e' t l → clow ≤ ks.length) := by
  obtain ⟨junk, e0, calls, h0, hc, hcalls⟩ := hr
  obtain ⟨vs, g, i0, hh⟩ := init_some ok h0
  obtain ⟨i, eh⟩ := calls_inv ok hne fine many hs vs calls i0 hc hcalls
  rw [← eh] at hh
  have hW : 1 ≤ c.W := by have := g.1; omega
  have hdist := (heuristics_iff_square ok hW junk).2 _ hh
  obtain ⟨hcx, hvx, hex⟩ := entry_ok i hs vs hn hx
  obtain ⟨e', l, h1, i', p', h', hl⟩ := randSuccs_spec ok many hs vs i hn hx hd
  refine ⟨e', l, h1, p', ?_⟩
  intro t clow hm
  obtain ⟨⟨y, hy, hcl⟩, hk⟩ := hl t clow hm
  constructor
  · rcases hk with ⟨e1, _⟩ | ⟨k, a1, a2, a3, a4, a5⟩
    · exact .inl e1
    · refine .inr ⟨k, a1, a2, (stands_iff ok hne a2).mp a3, a5, c.endCell x.coord, c.endCell k, (endCell_valid ok hne hvx).2.2, (endCell_valid ok hne a2).2.2, ?_⟩
      rw [hex] at a4
      unfold inReach longDist at a4
      simp only [Bool.and_eq_true, decide_eq_true_eq] at a4
      rw [abs_le, abs_le]; omega
  · intro hz ks lst hmo hlast hst
    have vl : Valid c lst := motion_last hmo hlast
    have ey : (y.ex, y.ey) = c.endCell lst := by
      rcases hst with ⟨e1, hg⟩ | ⟨e1, _, _, z, hz1, hz2⟩
      · subst e1
        rw [i'.goal] at hy
        cases hy
        exact ((atGoal_iff ok hne vl).mp (path_ends_at_goal hz hmo hlast hg)).symm
      · rw [hy] at hz1; cases hz1
        rw [(entry_ok i' hs vs e1 hy).2.2, hz2]
    have inT := (endCell_valid ok hne vl).1
    have du := hdist _ _ inT (endCell_valid ok hne hvx).1
    have dv := hdist _ _ inT inT
    have := dist_motion ok hne fine hcx hmo hlast (fun p hp => ⟨_, hdist _ _ inT hp⟩) du dv
    rw [hcl, ey, hex]
    have z0 := dist_self dv
    omega

/-- **C119 (refuted expectation)** A joint with fewer than 30 values: its new value may be 65536 - 26, say, although it has 4 values. -/
theorem rand_few_values {vals k off : Nat} (hk : k < vals) (hv : vals + k < 30) : randJoint vals k true false off = 65536 + k + vals - 30 ∧
    ¬ randJoint vals k true false off < vals := by
  have : randJoint vals k true false off = 65536 + k + vals - 30 := by
    unfold randJoint longDist
    rw [if_pos rfl, if_neg (by decide), if_pos (by omega)]
    unfold u16; omega
  exact ⟨this, by omega⟩

/-- the case: 4 values, value 1 -/
example : randJoint 4 1 true false 0 = 65511 := by decide

end Sbpl.ArmRandProps
