import Verif.Props.XYTPlan
import Verif.Props.MHA
/-!
# MHA* on `EnvironmentNAVXYTHETALAT`, end to end (C196)
-/

namespace Sbpl.XYTARAProps
open Sbpl XSpec XEnv XCfg GraphSpec PlannerSpec XHeurProps XYTProps

variable {s : Setup} {num : XKey → Nat} {den : Nat → Option XKey} {hg hs : XKey → XKey → Int} {vel : ℚ}
variable {env0 : PEnv} {hs0 : Nat → Nat → Nat → Nat} {hcount D : Nat} {ops : List MHA.Op} {st st' : MHA} {par : MHA.Params} {budget : Nat}
  {res : MHA.Result} {a b : Nat} {p q : XKey} {xops : List XEnv.Op} {stx : XEnv}

theorem succs_den {c : XCfg} (stc : Static s c) (ok : SetupOk s) (N : XNumbering s num den) {gl i j n : Nat} (hp : den i = some p)
    (w : Walk ((xytPEnv c num den hg hs).succs gl) i j n) : ∃ q, den j = some q := by
  cases w with
  | nil => exact ⟨p, hp⟩
  | snoc _ h =>
    obtain ⟨_, _, q, _, _, hq, _⟩ := (succs_edge stc ok N).mp h
    exact ⟨q, hq⟩

/-- **C196** MHA* on the (x, y, theta) lattice, with any heuristics: a reported path is a sequence of states from start to goal without repetitions, joined by transitions that are
valid with the current costs of the environment (after any history `xops` of calls to it), of total cost at most the reported cost.  (`[b]` alone is what MHA* returns when the best
key is INFINITECOST or more, C36.) -/
theorem mha_xyt_path (cl : MHAProps.Called env0 hs0 hcount D ops st par a b) (hr : st.replan par budget = .ok (st', res))
    (hf : res.found = true) (hne : res.path ≠ [b])
    (hx : Hist s xops stx) (N : XNumbering s num den) (hmap : (MHASpec.lastEnv env0 hs0 ops).1 = xytPEnv stx.cfg num den hg hs) (hp : den a = some p) (hq : den b = some q) :
    ∃ ks n, res.path.map den = ks.map some ∧ ks.head? = some p ∧ ks.getLast? = some q ∧ ks.Nodup ∧ LPath s (costs s xops) ks n ∧ ((n : Nat) : Int) ≤ res.cost ∧
      res.cost < INFINITECOST := by
  obtain ⟨ix, eg, -, -⟩ := hist_inv hx
  rw [← eg]
  obtain ⟨⟨h1, h2⟩, h3, -, n, hpc, hn, hi⟩ := MHAProps.replan_path_sound cl hr hf hne
  rw [hmap] at hpc
  obtain ⟨ks, e1, e2, e3, e4, e5⟩ := decode_path ix.stc hx.1 N hpc h1 h2 h3 hp hq
  exact ⟨ks, n, e1, e2, e3, e4, e5, hn, hi⟩

/-- **C196** With the heuristic of the environment as the anchor, and any other heuristics: when a path is found and some walk of cost `n` leads from start to goal, the reported cost
is at most MHA eps times (eps + (k * eps + 1) / m) * n, where `m` is the cost of the cheapest primitive and the slack `k` is 0 for whole nominal velocities and the rounded-up
reciprocal of the velocity otherwise; if this bound is below INFINITECOST the path is genuine (it starts at the start). -/
theorem mha_xyt_bound (cl : MHAProps.Called env0 hs0 hcount D ops st par a b) (hr : st.replan par budget = .ok (st', res))
    (hf : res.found = true) (hD : 0 < D)
    (hx : Hist s xops stx) (N : XNumbering s num den) (hmap : (MHASpec.lastEnv env0 hs0 ops).1 = xytPEnv stx.cfg num den hg hs)
    (hanc : (MHASpec.lastEnv env0 hs0 ops).2 0 = (xytPEnv stx.cfg num den hg hs).hGoal) (hp : den a = some p) (hq : den b = some q)
    (hv : 0 < vel) (hfa : NotTooFast s vel) (hw : Followable s vel) {m k n : Nat} (hm : CostAtLeast s m)
    (hk : Slack vel k) (hG : ∀ g, InRange s g → HeurFrom s vel (costs s xops) g (hg g)) (hS : ∀ g, InRange s g → HeurFrom s vel (costs s xops) g (hs g))
    (w : LWalk s (costs s xops) p q n) :
    (D : Int) * ((D * m : Nat) * res.cost) ≤ MHASpec.lastMhaEps D ops * ((par.initEps * m + par.initEps * k + D : Nat) * n) ∧
    (MHASpec.lastMhaEps D ops * ((par.initEps * m + par.initEps * k + D) * n) < D * ((D * m) * INFINITECOST) → FromTo res.path a b) := by
  obtain ⟨ix, eg, -, -⟩ := hist_inv hx
  have stc := ix.stc
  have ok := hx.1
  rw [← eg] at hG hS w
  obtain ⟨n', hn, w'⟩ := walk_of_lwalk (hg := hg) (hs := hs) stc ok N hp hq w
  have h := xyt_heur (e := par.initEps) stc ok N hv hfa hw hm hk hG hS hD true
  unfold HeurUpTo at h
  rw [if_pos rfl] at h
  have hi := cl.initEps
  have := MHAProps.replan_bound_general cl hr hf (N := par.initEps * m + par.initEps * k + D) (M := D * m) (w := n') (by nlinarith)
    (by rw [hanc]; exact (h b).1) (by rw [hmap, hanc]; exact (h b).2) (by rw [hmap]; exact w')
  have mono : (par.initEps * m + par.initEps * k + D) * n' ≤ (par.initEps * m + par.initEps * k + D) * n := Nat.mul_le_mul_left _ hn
  refine ⟨le_trans this.1 ?_, fun hlt => this.2 ?_⟩
  · exact_mod_cast Nat.mul_le_mul_left _ mono
  · exact lt_of_le_of_lt (Nat.mul_le_mul_left _ mono) hlt

/-- **C196** With a whole nominal velocity and eps = E (a whole number at least `par.initEps / D`): when a path is found its cost is at most MHA eps * E times the cost of every walk;
and when a search with more loop checks than twice the number of states of the lattice, and no limit on expansions in force, reports failure, every walk from start to goal costs at
least INFINITECOST / E. -/
theorem mha_xyt_complete (cl : MHAProps.Called env0 hs0 hcount D ops st par a b) (hr : st.replan par budget = .ok (st', res))
    {E : Nat} (hE : 1 ≤ E) (heE : par.initEps ≤ E * D)
    (hx : Hist s xops stx) (N : XNumbering s num den) (hmap : (MHASpec.lastEnv env0 hs0 ops).1 = xytPEnv stx.cfg num den hg hs)
    (hanc : (MHASpec.lastEnv env0 hs0 ops).2 0 = (xytPEnv stx.cfg num den hg hs).hGoal) (hp : den a = some p) (hq : den b = some q)
    (hv : 0 < vel) (hfa : NotTooFast s vel) (hw : Followable s vel) (hz : ∃ z : Nat, vel = z)
    (hG : ∀ g, InRange s g → HeurFrom s vel (costs s xops) g (hg g)) (hS : ∀ g, InRange s g → HeurFrom s vel (costs s xops) g (hs g))
    {n : Nat} (w : LWalk s (costs s xops) p q n) :
    (res.found = true → (D : Int) * res.cost ≤ MHASpec.lastMhaEps D ops * (E * n)) ∧
    (2 * (s.W.toNat * (s.H.toNat * s.T)) < budget → (par.first = true ∨ MHASpec.lastMaxExp 0 ops < 1) → res.found = false → INFINITECOST ≤ E * n) := by
  obtain ⟨ix, eg, -, -⟩ := hist_inv hx
  have stc := ix.stc
  have ok := hx.1
  rw [← eg] at hG hS w
  obtain ⟨n', hn, w'⟩ := walk_of_lwalk (hg := hg) (hs := hs) stc ok N hp hq w
  have h := xyt_heurOk stc ok N hv hfa hw hz hG hS true
  unfold HeurOk at h
  rw [if_pos rfl] at h
  have hc : Consistent ((MHASpec.lastEnv env0 hs0 ops).1.succs b) b ((MHASpec.lastEnv env0 hs0 ops).2 0 b) := by
    rw [hmap, hanc]; exact h b
  have mono : E * n' ≤ E * n := Nat.mul_le_mul_left _ hn
  refine ⟨fun hf => ?_, fun hlong hlim hf => ?_⟩
  · have := (MHAProps.replan_bound cl hr hf hE heE hc (w := n') (by rw [hmap]; exact w')).1
    refine le_trans this ?_
    exact_mod_cast Nat.mul_le_mul_left _ mono
  · have ex : res.exhausted = true := by
      rcases MHAProps.replan_terminates cl hr (R := allIds s num) (by
        intro i n w
        rw [hmap] at w
        obtain ⟨q', hq'⟩ := succs_den stc ok N hp w
        exact mem_allIds N hq') (by rw [allIds_length]; exact hlong) with t | t | ⟨t1, t2, t3⟩
      · rw [hf] at t; cases t
      · exact t
      · rcases hlim with hl | hl
        · rw [hl] at t1; cases t1
        · omega
    exact Nat.le_trans (MHAProps.replan_failure_complete cl hr hf ex hE heE hc (w := n') (by rw [hmap]; exact w')) mono

end Sbpl.XYTARAProps
