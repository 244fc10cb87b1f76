import Verif.Proofs.LazyARATerm
import Verif.Props.LazyARA
/-!
# Lazy ARA* given enough time (C85)
-/

namespace Sbpl.LazyProps
open LazyARA LazySpec

/-- libstdc++'s priority queue neither duplicates nor drops elements. -/
theorem stdQueue_perm : QueuePerm stdQueue := ⟨StdHeap.push_perm, fun _ _ _ _ h => StdHeap.pop_perm h⟩

/-- the number of states in `U` and of edges listed for them, each counted once -/
def size (next : Nat → List (Nat × Nat × Bool)) (U : List Nat) : Nat := (U.map fun u => 1 + (next u).length).sum

section
variable {wf : (LazyElem → Nat) → List LazyElem → Prop} {Q : LQueue} {env0 : LEnv} {fwd : Bool} {D ie fe de : Nat} {fs : Bool}
  {ops : List Op} {st st' : LazyARA} {bs : List Nat} {res : LazyARA.Result} {a b : Nat}

/-- **C85** Let `U` be a finite set of states containing the start and the goal and closed under GetLazySuccs (GetLazyPreds for a
backward search).  If the clock allows every pass at least (number of passes allowed) × (number of states and edges of `U`) turns of
the loop, then the only exception is a full heap and no pass is ended by the clock - in particular replan terminates with
`return_first_solution`, whatever the time limit; and if a path is found its reported eps is the initial eps with
`return_first_solution`, and without it at most final_eps, provided enough passes are allowed to get there in steps of dec_eps. -/
theorem enough_time (hQ : QueueOk Q wf) (hP : QueuePerm Q) (hok : HistOk fwd env0 (ops ++ [.replan bs]))
    (hrun : (LazyARA.init env0 Q fwd D ie fe de fs).run ops = some st) (hid : ids ops (none, none) = (some a, some b))
    {next : Nat → List (Nat × Nat × Bool)} (hn : next = if fwd then (lastEnv env0 ops).succs else (lastEnv env0 ops).preds)
    {U : List Nat} (nd : U.Nodup) (ha : a ∈ U) (hb : b ∈ U) (hU : ∀ u ∈ U, ∀ e ∈ next u, e.1 ∈ U)
    (hbs : bs ≠ []) (htime : ∀ n ∈ bs, bs.length * size next U ≤ n) :
    (∀ x, st.replan bs = .error x → x = .heap .full) ∧
    ∀ st' res, st.replan bs = .ok (st', res) → (∀ p ∈ res.passes, p.out = false) ∧
      (res.found = true → (lastParams (ie, fe, de, fs) ops).2.2.2 = true → res.finalEps = some (lastParams (ie, fe, de, fs) ops).1) ∧
      (res.found = true → (lastParams (ie, fe, de, fs) ops).2.2.2 = false →
        (lastParams (ie, fe, de, fs) ops).1 ≤ (lastParams (ie, fe, de, fs) ops).2.1 + (bs.length - 1) * (lastParams (ie, fe, de, fs) ops).2.2.1 →
        ∃ e, res.finalEps = some e ∧ e ≤ (lastParams (ie, fe, de, fs) ops).2.1) := by
  have i := hist hQ hok.init hrun
  have hu : st.userIds = (some a, some b) := by
    have := i.ids
    have e : (LazyARA.init env0 Q fwd D ie fe de fs).userIds = (none, none) := by unfold userIds; cases fwd <;> rfl
    rw [e, hid] at this
    exact this
  have eo : LEnvOk st.env := by rw [i.env]; exact lastEnv_ok ops hok.env hok.init.envs
  have hnum : st.num + 1 < SHORT - 1 := by
    have h1 := i.num
    have h2 := hok.num
    rw [replans_append] at h2
    have : (LazyARA.init env0 Q fwd D ie fe de fs).num = 0 := rfl
    rw [this] at h1
    show _ < 65536 - 1
    omega
  have hz : st.hPre b = 0 := by
    have := (goalsZero_append ops _ hok.zero).2
    rw [hid] at this
    have := this.1
    unfold hPre
    rw [i.env, i.fwd]; exact this
  have ef : st.fwd = fwd := i.fwd
  have ee : st.env = lastEnv env0 ops := i.env
  have nx : st.nbr = next := by funext u; unfold nbr; rw [hn, ef, ee]; cases fwd <;> rfl
  have tw : TW U st = size next U := by unfold TW size; rw [nx]
  have eQ : st.Q = Q := i.Q
  have sp := search_W (wf := wf) (s0 := a) (gl := b) (bs := bs) (U := U) (by rw [eQ]; exact hQ) (by rw [eQ]; exact hP) (posN eo) i.hist hnum
    (hok.few _ (List.mem_append_right _ List.mem_cons_self) bs rfl) hz nd ha hb (by rw [nx]; exact hU) hbs (by rw [tw]; exact htime)
  have ip : lastParams (ie, fe, de, fs) ops = (st.initEps, st.finalEps, st.decEps, st.first) := i.pars.symm
  rw [ip, replan_some hu]
  cases es : st.search bs a b with
  | error x =>
    rw [es] at sp
    refine ⟨?_, fun _ _ h => nomatch h⟩
    intro y h
    simp only [Except.error.injEq] at h
    rw [← h]; exact sp
  | ok r =>
    obtain ⟨st1, r⟩ := r
    have sf : SearchFull st bs r := sp.ok es
    refine ⟨fun _ h => (nomatch h), ?_⟩
    intro st' res h
    simp only [Except.ok.injEq, Prod.mk.injEq] at h
    obtain ⟨_, rfl⟩ := h
    exact ⟨sf.out, sf.first, sf.last⟩

/-- **C85 and C75** Given enough time (as above), lower bounds as unevaluated costs, a consistent heuristic and initial eps at most
`E`: if there is a path over existing edges cheaper than INFINITECOST / E, then unless the heap overflows a path over existing edges
is returned whose real cost is at most `E` times as high. -/
theorem enough_time_found (hQ : QueueOk Q wf) (hP : QueuePerm Q) (hok : HistOk true env0 (ops ++ [.replan bs]))
    (hrun : (LazyARA.init env0 Q true D ie fe de fs).run ops = some st) (hid : ids ops (none, none) = (some a, some b))
    {U : List Nat} (nd : U.Nodup) (ha : a ∈ U) (hb : b ∈ U) (hU : ∀ u ∈ U, ∀ e ∈ (lastEnv env0 ops).succs u, e.1 ∈ U)
    (hbs : bs ≠ []) (htime : ∀ n ∈ bs, bs.length * size (lastEnv env0 ops).succs U ≤ n)
    (hlow : LazyLower (lastEnv env0 ops)) {E : Nat} (hD : 0 < D) (hE1 : 1 ≤ E) (hE : (lastParams (ie, fe, de, fs) ops).1 ≤ E * D)
    (hh : Consistent (lastEnv env0 ops) b) (hs : (lastParams (ie, fe, de, fs) ops).1 * (lastEnv env0 ops).hGoalPre a / D < INFINITECOST)
    {c : Nat} (w : RWalk (Edge (lastEnv env0 ops)) a b c) (hc : E * c < INFINITECOST) :
    st.replan bs = .error (.heap .full) ∨ ∃ st' res k, st.replan bs = .ok (st', res) ∧ res.found = true ∧ res.path.head? = some a ∧
      res.path.getLast? = some b ∧ RPath (Edge (lastEnv env0 ops)) res.path k ∧ k ≤ E * c := by
  obtain ⟨h1, h2⟩ := enough_time hQ hP hok hrun hid (by simp) nd ha hb hU hbs htime
  cases hr : st.replan bs with
  | error x => left; rw [h1 x hr]
  | ok r =>
    obtain ⟨st', res⟩ := r
    right
    have cut := (h2 st' res hr).1
    obtain ⟨hf, k, p, hk⟩ := bound hQ hok hrun hid hr hbs cut hlow hD hE1 hE hh hs w hc
    obtain ⟨p1, p2, _⟩ := path_sound hQ hok hrun hid hr hf
    exact ⟨st', res, k, rfl, hf, p1, p2, p, hk⟩

end

end Sbpl.LazyProps
