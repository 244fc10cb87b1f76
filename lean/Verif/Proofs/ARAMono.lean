import Verif.Proofs.ARAApi
/-!
# Between two re-initialisations the g-values never grow

`Low a b`: from `a` to `b` the call number stays, states visited in this call stay visited, and their `g` only decreases.
-/

namespace Sbpl
namespace ARA
open PlannerSpec GraphSpec

def Low (a b : ARA) : Prop := b.call = a.call ∧ ∀ s, a.acc s → b.acc s ∧ b.g s ≤ a.g s

theorem Low.refl (a : ARA) : Low a a := ⟨rfl, fun _ h => ⟨h, Nat.le_refl _⟩⟩
theorem Low.trans {a b c : ARA} (x : Low a b) (y : Low b c) : Low a c :=
  ⟨y.1.trans x.1, fun s h => ⟨(y.2 s (x.2 s h).1).1, Nat.le_trans (y.2 s (x.2 s h).1).2 (x.2 s h).2⟩⟩

theorem low_eq {a b : ARA} (h1 : b.call = a.call) (h2 : b.callA = a.callA) (h3 : b.g = a.g) : Low a b :=
  ⟨h1, fun s h => ⟨by unfold acc; rw [h1, h2]; exact h, by rw [h3]⟩⟩

theorem low_touch (st : ARA) (s : Nat) : Low st (st.touch s) := by
  unfold touch; split
  · next h =>
    refine ⟨rfl, fun t ht => ?_⟩
    have : t ≠ s := by rintro rfl; exact h ht
    refine ⟨?_, ?_⟩
    · show upd st.callA s st.call t = st.call
      rw [upd, if_neg this]; exact ht
    · show upd st.g s INFINITECOST t ≤ st.g t
      rw [upd, if_neg this]
  · exact Low.refl _

theorem low_reinsert {st st' : ARA} {t : Nat} (h : st.reinsert t = .ok st') : Low st st' := by
  unfold reinsert at h
  split at h
  · split at h
    · split at h
      · cases h; exact low_eq rfl rfl rfl
      · cases h
    · split at h
      · cases h; exact low_eq rfl rfl rfl
      · cases h
  · split at h
    · split at h
      · cases h; exact low_eq rfl rfl rfl
      · cases h
    · cases h; exact Low.refl _

theorem low_updateOne {st st' : ARA} {s t c : Nat} (h : st.updateOne s t c = .ok st') : Low st st' := by
  unfold updateOne at h
  simp only at h
  split at h
  · next hg =>
    have q := low_reinsert h
    refine (low_touch st t).trans (Low.trans ?_ q)
    refine ⟨rfl, fun u hu => ⟨hu, ?_⟩⟩
    simp only [upd]
    split
    · next e => subst e; omega
    · exact Nat.le_refl _
  · cases h; exact low_touch st t

theorem low_updateAll {s : Nat} : ∀ (es : List (Nat × Nat)) {st st' : ARA}, st.updateAll s es = .ok st' → Low st st'
  | [], st, st', h => by unfold updateAll at h; cases h; exact Low.refl _
  | (t, c) :: es, st, st', h => by
    unfold updateAll at h
    split at h
    · cases h
    · rename_i h1; exact (low_updateOne h1).trans (low_updateAll es h)

theorem low_expand {st st' : ARA} {s : Nat} (h : st.expand = .ok (s, st')) : Low st st' := by
  unfold expand at h
  split at h
  · cases h
  · simp only at h
    split at h
    · cases h
    · rename_i h1; cases h
      have q := low_updateAll _ h1
      exact ⟨q.1, q.2⟩

theorem low_improveLoop {gl : Nat} : ∀ (b : Nat) {st st' : ARA} {tr : List Nat}, improveLoop gl b st = .ok (tr, st') → Low st st'
  | 0, st, st', tr, h => by unfold improveLoop at h; cases h; exact Low.refl _
  | b + 1, st, st', tr, h => by
    unfold improveLoop at h
    split at h
    · split at h
      · cases h
      · rename_i h1
        split at h
        · cases h
        · rename_i h2; cases h
          exact (low_expand h1).trans (low_improveLoop b h2)
    · cases h; exact Low.refl _

theorem low_improvePath {st st' : ARA} {b r : Nat} {tr : List Nat} (h : st.improvePath b = .ok (st', r, tr)) : Low st st' := by
  unfold improvePath at h
  split at h
  · cases h
  · split at h
    · cases h
    · rename_i h1; cases h
      exact (low_touch _ _).trans (low_improveLoop _ h1)

theorem low_buildLoop : ∀ (f : Nat) {st st' : ARA}, buildLoop f st = .ok st' → Low st st'
  | 0, st, st', h => by unfold buildLoop at h; cases h; exact Low.refl _
  | f + 1, st, st', h => by
    unfold buildLoop at h
    split at h
    · cases h
    · cases h; exact Low.refl _
    · split at h
      · cases h
      · split at h
        · cases h
        · have q := low_buildLoop f h
          exact ⟨q.1, q.2⟩

theorem low_decrease (st : ARA) : Low st st.decrease := by
  unfold decrease; split
  · exact low_eq rfl rfl rfl
  · exact Low.refl _

theorem low_newIteration {st st' : ARA} (h : st.newIteration = .ok st') : Low st st' := by
  unfold newIteration at h
  split at h
  · have q := low_buildLoop _ h
    exact ⟨q.1, q.2⟩
  · cases h; exact Low.refl _

theorem low_searchIter {st st' : ARA} {b r : Nat} {tr : List Nat} (h : st.searchIter b = .ok (st', r, tr)) : Low st st' := by
  unfold searchIter at h
  split at h
  · cases h
  · rename_i st1 h1
    have c1 := low_newIteration h1
    simp only at h
    split at h
    · cases h
    · rename_i st3 ret tr3 h2
      have c2 := low_improvePath h2
      have c12 : Low st1 (if st1.bReeval then st1.reevalF else st1) := by
        split
        · exact low_eq rfl rfl rfl
        · exact Low.refl _
      have c3 := (low_decrease st).trans (c1.trans (c12.trans c2))
      cases h
      split
      · exact c3.trans (low_eq rfl rfl rfl)
      · exact c3

theorem low_searchLoop {gl : Nat} : ∀ (bs : List Nat) {st st' : ARA} {trs : List (List Nat)}, searchLoop gl bs st = .ok (st', trs) →
    Low st st'
  | [], st, st', trs, h => by unfold searchLoop at h; cases h; exact Low.refl _
  | b :: bs, st, st', trs, h => by
    unfold searchLoop at h
    split at h
    · split at h
      · cases h
      · rename_i h1
        have c := low_searchIter h1
        split at h
        · cases h; exact c
        · split at h
          · cases h; exact c
          · split at h
            · cases h
            · rename_i h2
              have c2 := low_searchLoop bs h2
              cases h; exact c.trans c2
    · cases h; exact Low.refl _

/-- One successful backward `replan` towards a different state: the second state `q` of the path was visited in this call and
its `g` is smaller than that of the robot's state `gl`; if the planner did not start afresh, the `g` of `gl` has not grown. -/
theorem replan_step {st st' : ARA} {s0 gl : Nat} {bs : List Nat} {res : Result} (i : Api st) (he : EnvOk st.env)
    (h0 : st.start = some s0) (hg : st.goal = some gl) (hf : st.fwd = false) (hb : bs ≠ []) (hne : s0 ≠ gl)
    (hr : st.replan bs = .ok (st', res)) (hfound : res.found = true) :
    ∃ q rest, res.path = gl :: q :: rest ∧ st'.bReinit = false ∧ st'.acc q ∧ st'.g q < st'.g gl ∧ st'.g gl < INF ∧
      (st.bReinit = false → st.acc gl → st'.g gl ≤ st.g gl) := by
  unfold replan at hr
  rw [h0, hg] at hr
  simp only at hr
  have sp := searchProlog_spec i h0 hg
  cases e1 : st.searchProlog gl with
  | error x => rw [e1] at hr; cases hr
  | ok st1 =>
    rw [e1] at sp hr
    obtain ⟨i1, a1, k1, k2, k3, k4, k5, k6, k7, k8, k9, k10⟩ := sp
    have ls := searchLoop_spec bs i1 (envOk_nbr (by rw [k1]; exact he) i1.goal)
    simp only at hr
    cases e2 : searchLoop gl bs st1 with
    | error x => rw [e2] at hr; cases hr
    | ok r =>
      obtain ⟨st2, trs⟩ := r
      rw [e2] at ls hr
      have l1 := ls.inv; have l2 := ls.frame; have ag := ls.accG hb
      simp only at l1 l2 ag hr
      have low := low_searchLoop bs e2
      split at hr
      · cases hr; cases hfound
      · next hx =>
        have fin2 : st2.g gl ≤ INF := by
          have := l1.core.GV gl; rw [G_acc ag] at this; omega
        have lt : st2.g gl < INF := by
          have hx' : st2.g gl ≠ INF := hx
          omega
        have fwdE : st2.fwd = false := by rw [l2.fwd, k2, hf]
        have envE : st2.env = st.env := l2.env.trans k1
        have pos2 : Pos st2 := envOk_base (by rw [envE]; exact he)
        obtain ⟨L, hL, hl⟩ := chain_exists l1.core pos2 (st2.g gl) gl (Nat.le_refl _) ag lt
        have lk : Link st2.next (gl :: L) := by
          have := hL.link
          have e : st2.ptr = st2.next := by funext x; simp [ptr, fwdE]
          rw [e] at this; exact this
        obtain ⟨c, hc⟩ := follow_spec L (eg := s0) (st2.g gl + 1) lk hL.last hL.nodup hL.fin (by omega)
        have hgp : st2.getSearchPath (st2.g gl + 1) s0 gl = .ok (st2, gl :: L, c) := by
          unfold getSearchPath
          rw [if_neg (by rw [fwdE]; simp), hc]
        rw [hgp] at hr
        simp only [Except.ok.injEq, Prod.mk.injEq] at hr
        obtain ⟨r1, r2⟩ := hr
        subst r1
        have first : ∃ q rest, L = q :: rest ∧ st2.acc q ∧ st2.g q < st2.g gl := by
          cases hL with
          | start => exact absurd rfl hne
          | @cons _ p c r _ _ _ _ _ p1 p2 p3 tl =>
            refine ⟨p, r, rfl, ?_, by omega⟩
            cases tl with
            | start a _ => exact a
            | cons _ a _ _ _ _ _ _ _ => exact a
        obtain ⟨q, rest, eL, aq, lq⟩ := first
        refine ⟨q, rest, by rw [← r2, eL], l1.reinit, aq, lq, lt, ?_⟩
        intro hrei hacc
        have l0 : Low st st1 := by
          unfold searchProlog at e1
          by_cases hv : st.bReeval = true
          · rw [if_pos hv] at e1
            simp only at e1
            rw [if_neg (by show ¬ st.bReinit = true; rw [hrei]; simp)] at e1
            cases e1
            exact low_eq rfl rfl rfl
          · rw [if_neg hv] at e1
            simp only at e1
            rw [if_neg (by rw [hrei]; simp)] at e1
            cases e1
            exact Low.refl _
        exact ((l0.trans low).2 gl hacc).2

end ARA
end Sbpl
