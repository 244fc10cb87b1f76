import Verif.Model.ARAMach
import Verif.Proofs.ARA16
/-! # The machine integers of `ARAPlanner` do not overflow within explicit bounds -/

namespace Sbpl
namespace ARA

/-- an environment whose numbers are `int`s, with heuristic values at most `H` -/
structure EnvBd (H : Nat) (env : PEnv) : Prop where
  hG : ∀ gl s, env.hGoal gl s ≤ H
  hS : ∀ gl s, env.hStart gl s ≤ H
  cS : ∀ gl s e, e ∈ env.succs gl s → e.2 < 2147483648
  cP : ∀ gl s e, e ∈ env.preds gl s → e.2 < 2147483648

/-- bounds on everything that enters a computation -/
structure MB (M H : Nat) (st : ARA) : Prop where
  env : EnvBd H st.env
  g : ∀ s, st.g s ≤ 1000000000
  v : ∀ s, st.v s ≤ 1000000000
  h : ∀ s, st.h s ≤ H
  eps : st.eps ≤ M
  ini : st.initEps ≤ M
  fin : st.finalEps ≤ M
  ok : M * H / st.D < 2147483648

variable {conv : Nat → Nat} {M H : Nat}

theorem MB.infl {st : ARA} (b : MB M H st) (s : Nat) : infl st.D st.eps (st.h s) < 2147483648 := by
  refine Nat.lt_of_le_of_lt ?_ b.ok
  exact Nat.div_le_div_right (Nat.mul_le_mul b.eps (b.h s))

theorem MB.key {st : ARA} (b : MB M H st) (s : Nat) :
    u32 (st.g s + toInt conv (ARA.infl st.D st.eps (st.h s))) = st.g s + ARA.infl st.D st.eps (st.h s) := by
  have h1 := b.infl s
  have h2 := b.g s
  unfold u32 toInt
  rw [if_pos h1, Nat.mod_eq_of_lt (by omega)]

theorem MB.keyFor {st : ARA} (b : MB M H st) (s : Nat) : st.keyForM conv s = st.keyFor s := by
  unfold keyForM ARA.keyFor; rw [b.key]

theorem MB.heur {st : ARA} (b : MB M H st) (gl s : Nat) : st.heur gl s ≤ H := by
  unfold ARA.heur; split
  · exact b.env.hG gl s
  · exact b.env.hS gl s

theorem mb_touch {st : ARA} (b : MB M H st) (t : Nat) : MB M H (st.touch t) := by
  unfold touch; split
  · refine ⟨b.env, ?_, ?_, ?_, b.eps, b.ini, b.fin, b.ok⟩
    · intro s; show upd st.g t INFINITECOST s ≤ _; unfold upd; split
      · exact Nat.le_refl _
      · exact b.g s
    · intro s; show upd st.v t INFINITECOST s ≤ _; unfold upd; split
      · exact Nat.le_refl _
      · exact b.v s
    · intro s
      show upd st.h t (match st.goal with | some gl => st.heur gl t | none => 0) s ≤ _
      unfold upd; split
      · split
        · exact b.heur _ _
        · exact Nat.zero_le _
      · exact b.h s
  · exact b

/-- same numbers -/
theorem MB.congr {a b : ARA} (m : MB M H a) (h1 : b.env = a.env) (h2 : b.g = a.g) (h3 : b.v = a.v) (h4 : b.h = a.h)
    (h5 : b.eps = a.eps) (h6 : b.initEps = a.initEps) (h7 : b.finalEps = a.finalEps) (h8 : b.D = a.D) : MB M H b :=
  ⟨by rw [h1]; exact m.env, by rw [h2]; exact m.g, by rw [h3]; exact m.v, by rw [h4]; exact m.h, by rw [h5]; exact m.eps,
    by rw [h6]; exact m.ini, by rw [h7]; exact m.fin, by rw [h8]; exact m.ok⟩

theorem mb_reinsert {st st' : ARA} (b : MB M H st) {t : Nat} (h : st.reinsert t = .ok st') : MB M H st' := by
  unfold reinsert at h
  split at h
  · split at h
    · split at h
      · cases h; exact b.congr rfl rfl rfl rfl rfl rfl rfl rfl
      · cases h
    · split at h
      · cases h; exact b.congr rfl rfl rfl rfl rfl rfl rfl rfl
      · cases h
  · split at h
    · split at h
      · cases h; exact b.congr rfl rfl rfl rfl rfl rfl rfl rfl
      · cases h
    · cases h; exact b

theorem reinsertM_eq {st : ARA} (b : MB M H st) (t : Nat) : st.reinsertM conv t = st.reinsert t := by
  unfold reinsertM reinsert
  rw [b.keyFor]
  rfl

/-- lowering one g-value -/
theorem MB.low {st : ARA} (b : MB M H st) {t x : Nat} (hx : x < st.g t) (p n : Nat → Option Nat) :
    MB M H { st with g := upd st.g t x, par := p, next := n } := by
  refine ⟨b.env, ?_, b.v, b.h, b.eps, b.ini, b.fin, b.ok⟩
  intro s; show upd st.g t x s ≤ _; unfold upd; split
  · have := b.g t; omega
  · exact b.g s

theorem updateOneM_eq {st : ARA} (b : MB M H st) {s t c : Nat} (hc : c < 2147483648) :
    st.updateOneM conv s t c = st.updateOne s t c := by
  have b1 := mb_touch b t
  have e : u32 ((st.touch t).v s + c) = (st.touch t).v s + c := by
    have := b1.v s
    exact Nat.mod_eq_of_lt (by omega)
  unfold updateOneM updateOne
  simp only
  rw [e]
  by_cases q : (st.touch t).g t > (st.touch t).v s + c
  · rw [if_pos q, if_pos q]
    exact reinsertM_eq (b1.low q _ _) t
  · rw [if_neg q, if_neg q]

theorem mb_updateOne {st st' : ARA} (b : MB M H st) {s t c : Nat} (h : st.updateOne s t c = .ok st') : MB M H st' := by
  have b1 := mb_touch b t
  unfold updateOne at h
  simp only at h
  split at h
  · rename_i q
    exact mb_reinsert (b1.low q _ _) h
  · cases h; exact b1

theorem updateAllM_eq {s : Nat} : ∀ (es : List (Nat × Nat)) {st : ARA}, MB M H st → (∀ e ∈ es, e.2 < 2147483648) →
    st.updateAllM conv s es = st.updateAll s es
  | [], st, _, _ => by unfold updateAllM updateAll; rfl
  | (t, c) :: es, st, b, hc => by
    unfold updateAllM updateAll
    rw [updateOneM_eq b (hc (t, c) (by simp))]
    rcases h : st.updateOne s t c with e | st1
    · rfl
    · exact updateAllM_eq es (mb_updateOne b h) (fun e he => hc e (by simp [he]))

theorem mb_updateAll {s : Nat} : ∀ (es : List (Nat × Nat)) {st st' : ARA}, MB M H st → st.updateAll s es = .ok st' → MB M H st'
  | [], st, st', b, h => by unfold updateAll at h; cases h; exact b
  | (t, c) :: es, st, st', b, h => by
    unfold updateAll at h
    split at h
    · cases h
    · rename_i h1; exact mb_updateAll es (mb_updateOne b h1) h

theorem MB.nbr {st : ARA} (b : MB M H st) (s : Nat) : ∀ e ∈ st.nbr s, e.2 < 2147483648 := by
  intro e he
  unfold ARA.nbr at he
  split at he
  · exact b.env.cS _ _ e he
  · exact b.env.cP _ _ e he

theorem MB.pop {st : ARA} (b : MB M H st) (s : Nat) (h : Heap CKey) :
    MB M H { st with heap := h, v := upd st.v s (st.g s), iterC := upd st.iterC s st.iter } := by
  refine ⟨b.env, b.g, ?_, b.h, b.eps, b.ini, b.fin, b.ok⟩
  intro t; show upd st.v s (st.g s) t ≤ _; unfold upd; split
  · exact b.g s
  · exact b.v t

theorem expandM_eq {st : ARA} (b : MB M H st) : st.expandM conv = st.expand := by
  unfold expandM expand
  rcases h : st.heap.deleteMin with e | ⟨s, h'⟩
  · rfl
  · simp only
    rw [updateAllM_eq _ (b.pop s h') ((b.pop s h').nbr s)]
    rfl

theorem mb_expand {st st' : ARA} {s : Nat} (b : MB M H st) (h : st.expand = .ok (s, st')) : MB M H st' := by
  unfold expand at h
  split at h
  · cases h
  · simp only at h
    split at h
    · cases h
    · rename_i h1; cases h
      exact mb_updateAll _ (b.pop _ _) h1

theorem improveLoopM_eq {gl : Nat} : ∀ (n : Nat) {st : ARA}, MB M H st → improveLoopM conv gl n st = improveLoop gl n st
  | 0, st, _ => by unfold improveLoopM improveLoop; rfl
  | n + 1, st, b => by
    unfold improveLoopM improveLoop
    rw [expandM_eq b]
    by_cases q : st.loopCond gl = true
    · rw [if_pos q, if_pos q]
      rcases h : st.expand with e | ⟨s, st1⟩
      · rfl
      · simp only
        rw [improveLoopM_eq n (mb_expand b h)]
        rfl
    · rw [if_neg q, if_neg q]

theorem mb_improveLoop {gl : Nat} : ∀ (n : Nat) {st st' : ARA} {tr : List Nat}, MB M H st → improveLoop gl n st = .ok (tr, st') → MB M H st'
  | 0, st, st', tr, b, h => by unfold improveLoop at h; cases h; exact b
  | n + 1, st, st', tr, b, h => by
    unfold improveLoop at h
    split at h
    · split at h
      · cases h
      · rename_i h1
        split at h
        · cases h
        · rename_i h2; cases h
          exact mb_improveLoop n (mb_expand b h1) h2
    · cases h; exact b

theorem improvePathM_eq {st : ARA} (b : MB M H st) (n : Nat) : st.improvePathM conv n = st.improvePath n := by
  unfold improvePathM improvePath
  rcases h : st.goal with _ | gl
  · rfl
  · simp only
    rw [improveLoopM_eq n (mb_touch b gl)]
    rfl

theorem mb_improvePath {st st' : ARA} (b : MB M H st) {n r : Nat} {tr : List Nat} (h : st.improvePath n = .ok (st', r, tr)) : MB M H st' := by
  unfold improvePath at h
  split at h
  · cases h
  · split at h
    · cases h
    · rename_i h1; cases h
      exact mb_improveLoop n (mb_touch b _) h1

theorem buildLoopM_eq : ∀ (f : Nat) {st : ARA}, MB M H st → buildLoopM conv f st = buildLoop f st
  | 0, st, _ => by unfold buildLoopM buildLoop; rfl
  | f + 1, st, b => by
    unfold buildLoopM buildLoop
    rcases st.incons.getFirst with e | o
    · rfl
    · rcases o with _ | s
      · rfl
      · simp only
        rw [b.keyFor]
        rcases st.heap.insert s (st.keyFor s) with e | h
        · rfl
        · simp only
          rcases st.incons.remove s with e | l
          · rfl
          · refine buildLoopM_eq f ?_
            exact b.congr rfl rfl rfl rfl rfl rfl rfl rfl

theorem mb_buildLoop : ∀ (f : Nat) {st st' : ARA}, MB M H st → buildLoop f st = .ok st' → MB M H st'
  | 0, st, st', b, h => by unfold buildLoop at h; cases h; exact b
  | f + 1, st, st', b, h => by
    unfold buildLoop at h
    split at h
    · cases h
    · cases h; exact b
    · split at h
      · cases h
      · split at h
        · cases h
        · refine mb_buildLoop f ?_ h
          exact b.congr rfl rfl rfl rfl rfl rfl rfl rfl

theorem rekeyM_eq {st : ARA} (b : MB M H st) (arr : Nat → HElem CKey) : ∀ n, st.rekeyM conv arr n = st.rekey arr n
  | 0 => by unfold rekeyM rekey; rfl
  | n + 1 => by
    unfold rekeyM rekey
    rw [rekeyM_eq b arr n]
    simp only
    rw [b.key]

theorem reevalFM_eq {st : ARA} (b : MB M H st) : st.reevalFM conv = st.reevalF := by
  unfold reevalFM reevalF; rw [rekeyM_eq b]

theorem mb_decrease {st : ARA} (b : MB M H st) : MB M H st.decrease := by
  unfold decrease; split
  · refine ⟨b.env, b.g, b.v, b.h, ?_, b.ini, b.fin, b.ok⟩
    show (if st.eps - st.decEps < st.finalEps then st.finalEps else st.eps - st.decEps) ≤ M
    have := b.eps; have := b.fin
    split <;> omega
  · exact b

theorem newIterationM_eq {st : ARA} (b : MB M H st) (h : st.iter + 1 < U16) : st.newIterationM conv = st.newIteration := by
  unfold newIterationM newIteration buildNewOpenM buildNewOpen
  rw [Nat.mod_eq_of_lt h]
  by_cases q : st.bNew = true
  · rw [if_pos q, if_pos q]
    exact buildLoopM_eq _ (b.congr rfl rfl rfl rfl rfl rfl rfl rfl)
  · rw [if_neg q, if_neg q]

theorem mb_newIteration {st st' : ARA} (b : MB M H st) (h : st.newIteration = .ok st') : MB M H st' := by
  unfold newIteration at h
  split at h
  · refine mb_buildLoop _ ?_ h
    exact b.congr rfl rfl rfl rfl rfl rfl rfl rfl
  · cases h; exact b

theorem mb_reeval {st : ARA} (b : MB M H st) : MB M H (if st.bReeval then st.reevalF else st) := by
  split
  · exact b.congr rfl rfl rfl rfl rfl rfl rfl rfl
  · exact b

theorem searchIterM_eq {st : ARA} (b : MB M H st) {n : Nat} (h : st.iter + 1 < U16) : st.searchIterM conv n = st.searchIter n := by
  unfold searchIterM searchIter
  rw [newIterationM_eq (mb_decrease b) (by rw [(ci_decrease st).2]; exact h)]
  rcases h1 : st.decrease.newIteration with e | st1
  · rfl
  · have b1 := mb_newIteration (mb_decrease b) h1
    simp only
    rw [reevalFM_eq b1, improvePathM_eq (mb_reeval b1)]
    rfl

theorem mb_searchIter {st st' : ARA} (b : MB M H st) {n r : Nat} {tr : List Nat} (h : st.searchIter n = .ok (st', r, tr)) : MB M H st' := by
  unfold searchIter at h
  split at h
  · cases h
  · rename_i st1 h1
    have b1 := mb_newIteration (mb_decrease b) h1
    simp only at h
    split at h
    · cases h
    · rename_i st3 ret tr3 h2
      have b3 := mb_improvePath (mb_reeval b1) h2
      cases h
      split
      · exact b3.congr rfl rfl rfl rfl rfl rfl rfl rfl
      · exact b3

theorem searchLoopM_eq {gl : Nat} : ∀ (bs : List Nat) {st : ARA}, MB M H st → st.iter + bs.length < U16 →
    searchLoopM conv gl bs st = searchLoop gl bs st
  | [], st, _, _ => by unfold searchLoopM searchLoop; rfl
  | n :: bs, st, b, h => by
    simp only [List.length_cons] at h
    unfold searchLoopM searchLoop
    rw [searchIterM_eq b (by omega)]
    by_cases nd : st.notDone = true
    · rw [if_pos nd, if_pos nd]
      rcases h1 : st.searchIter n with e | ⟨st1, r, tr⟩
      · rfl
      · have c := (searchIter_count h1).2
        simp only
        rw [searchLoopM_eq bs (mb_searchIter b h1) (by omega)]
        rfl
    · rw [if_neg nd, if_neg nd]

theorem mb_searchLoop {gl : Nat} : ∀ (bs : List Nat) {st st' : ARA} {trs : List (List Nat)}, MB M H st → searchLoop gl bs st = .ok (st', trs) →
    MB M H st'
  | [], st, st', trs, b, h => by unfold searchLoop at h; cases h; exact b
  | n :: bs, st, st', trs, b, h => by
    unfold searchLoop at h
    split at h
    · split at h
      · cases h
      · rename_i h1
        have b1 := mb_searchIter b h1
        split at h
        · cases h; exact b1
        · split at h
          · cases h; exact b1
          · split at h
            · cases h
            · rename_i h2
              have b2 := mb_searchLoop bs b1 h2
              cases h; exact b2
    · cases h; exact b

theorem mb_reinitFrom {st st' : ARA} (b : MB M H st) {s0 gl : Nat} (h : st.reinitFrom s0 gl = .ok st') : MB M H st' := by
  unfold reinitFrom at h
  split at h
  · cases h
  · rename_i l h1
    simp only at h
    split at h
    · cases h
    · rename_i hh h2
      cases h
      have b1 : MB M H { st with
          call := st.call + 1, iter := 0, bNew := true, heap := st.heap.makeEmpty, incons := l,
          eps := st.initEps, epsSat := none } := ⟨b.env, b.g, b.v, b.h, b.ini, b.ini, b.fin, b.ok⟩
      have b2 := mb_touch b1 s0
      have b3 : ∀ x : ARA, MB M H x → MB M H { x with g := upd x.g s0 0 } := by
        intro x bx
        refine ⟨bx.env, ?_, bx.v, bx.h, bx.eps, bx.ini, bx.fin, bx.ok⟩
        intro s; show upd x.g s0 0 s ≤ _; unfold upd; split
        · exact Nat.zero_le _
        · exact bx.g s
      have b4 := mb_touch (b3 _ b2) gl
      exact b4.congr rfl rfl rfl rfl rfl rfl rfl rfl

theorem mb_searchProlog {st st' : ARA} (b : MB M H st) {gl : Nat} (h : st.searchProlog gl = .ok st') : MB M H st' := by
  have key : ∀ x : ARA, MB M H x → (if x.bReinit then x.reinitSpace else .ok x) = .ok st' → MB M H st' := by
    intro x hx h
    split at h
    · unfold reinitSpace at h
      split at h
      · cases h
      · cases h
      · exact mb_reinitFrom hx h
    · cases h; exact hx
  unfold searchProlog at h
  simp only at h
  refine key _ ?_ h
  split
  · exact ⟨b.env, b.g, b.v, fun s => b.heur gl s, b.eps, b.ini, b.fin, b.ok⟩
  · exact b

theorem mb_reconstruct {s0 : Nat} : ∀ (f : Nat) {st : ARA} {s : Nat} {r : ARA}, MB M H st → reconstruct s0 f st s = .ok (some r) → MB M H r
  | 0, st, s, r, b, h => by unfold reconstruct at h; cases h
  | f + 1, st, s, r, b, h => by
    unfold reconstruct at h
    split at h
    · cases h; exact b
    · split at h
      · cases h
      · split at h
        · cases h
        · simp only at h
          split at h
          · cases h
          · refine mb_reconstruct f ?_ h
            exact b.congr rfl rfl rfl rfl rfl rfl rfl rfl

theorem mb_getSearchPath {st st' : ARA} (b : MB M H st) {f s0 gl c : Nat} {p : List Nat} (h : st.getSearchPath f s0 gl = .ok (st', p, c)) :
    MB M H st' := by
  unfold getSearchPath at h
  split at h
  · split at h
    · cases h
    · rename_i r h1
      simp only at h
      split at h
      · cases h
      · cases h
        cases r with
        | none => exact b
        | some r => exact mb_reconstruct _ b h1
  · split at h
    · cases h
    · cases h; exact b

theorem replanM_eq {st : ARA} (b : MB M H st) {bs : List Nat} (h1 : st.call + 1 < U16) (h2 : st.iter + bs.length < U16) :
    st.replanM conv bs = st.replan bs := by
  unfold replanM replan
  split
  · rename_i q; rw [q]
  · rename_i q1 q2; rw [q1, q2]
  · rename_i s0 gl q1 q2
    rw [q1, q2]
    simp only
    rw [searchProlog16_eq h1]
    rcases h : st.searchProlog gl with e | st1
    · rfl
    · have c := searchProlog_count h
      simp only
      rw [searchLoopM_eq bs (mb_searchProlog b h) (by omega)]
      rfl

theorem mb_replan {st st' : ARA} (b : MB M H st) {bs : List Nat} {r : Result} (h : st.replan bs = .ok (st', r)) : MB M H st' := by
  unfold replan at h
  split at h
  · cases h
  · cases h
  · split at h
    · cases h
    · rename_i st1 h1
      have b1 := mb_searchProlog b h1
      split at h
      · cases h
      · rename_i st2 trs h2
        have b2 := mb_searchLoop _ b1 h2
        split at h
        · cases h; exact b2
        · split at h
          · cases h
          · rename_i h3
            have b3 := mb_getSearchPath b2 h3
            cases h; exact b3

end ARA
end Sbpl
