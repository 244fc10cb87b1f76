import Verif.Proofs.RStarHigh
/-! # R*: the returned path; histories of calls -/

namespace Sbpl.RStar
open GraphSpec Heap

variable {G : Nat → List (Nat × Nat)} {s0 : Nat}

theorem pathCost_app : ∀ {a : List Nat} {m : Nat} {u : Nat} {b : List Nat} {k : Nat}, PathCost G a m → a.getLast? = some u → PathCost G (u :: b) k → PathCost G (a ++ b) (m + k)
  | _, _, _, _, _, .single s, h, hb => by
    simp at h; subst h
    rw [Nat.zero_add]; exact hb
  | _, _, u, b, k, .cons (s := s) (t := t) (c := c) (n := n) (p := p) he hp, h, hb => by
    have h' : (t :: p).getLast? = some u := by rw [List.getLast?_cons_cons] at h; exact h
    have := pathCost_app hp h' hb
    rw [Nat.add_assoc]
    exact .cons he this

/-- reversing a path -/
theorem pathCost_reverse {P S : Nat → List (Nat × Nat)} (h : ∀ s t c, (s, c) ∈ P t → (t, c) ∈ S s) : ∀ {a : List Nat} {m : Nat}, PathCost P a m → PathCost S a.reverse m
  | _, _, .single s => .single s
  | _, _, .cons (s := s) (t := t) (c := c) (n := n) (p := p) he hp => by
    have h1 := pathCost_reverse h hp
    rw [List.reverse_cons, Nat.add_comm]
    exact ARA.pathCost_snoc h1 (by simp) (h _ _ _ he)

/-- outcomes of path extraction -/
def PostC {α : Type} (s0 gl : Nat) (r : Except RErr α) (P : α → Prop) : Prop :=
  match r with
  | .ok a => P a
  | .error e => e = .clowMismatch ∨ e = .costExceeds ∨ e = .nullAct ∧ gl = s0

theorem chain_post {st : RStar} (i : HOk G s0 st) {gg : Nat} (hgg : gg < INFINITECOST) : ∀ {fuel s pc : Nat}, Cur st s → (s = s0 ∨ st.best s ≠ none) → st.g s < fuel →
    match chain st s0 gg fuel s pc with
    | .error e => e = .clowMismatch ∨ e = .costExceeds
    | .ok (l, n) => ∃ L m, PathCost G (s0 :: L.reverse) m ∧ (s0 :: L.reverse).getLast? = some s ∧ n = pc + m ∧ L.getLast? ≠ some s0 ∧
        (if st.fwd then l.reverse.flatMap RAct.path = L.reverse else l.flatMap RAct.path = L)
  | 0, _, _, _, _, h => by omega
  | fuel + 1, s, pc, c, hb, hf => by
    have base : s = s0 → ∃ (L : List Nat) (m : Nat), PathCost G (s0 :: L.reverse) m ∧ (s0 :: L.reverse).getLast? = some s ∧ pc = pc + m ∧ L.getLast? ≠ some s0 ∧
        (if st.fwd then ([] : List RAct).reverse.flatMap RAct.path = L.reverse else ([] : List RAct).flatMap RAct.path = L) := by
      rintro rfl
      exact ⟨[], 0, .single _, rfl, rfl, nofun, by split <;> rfl⟩
    unfold chain
    cases q : st.best s with
    | none =>
      rcases hb with h | h
      · exact base h
      · exact absurd q h
    | some a =>
      dsimp only
      by_cases e0 : s = s0
      · rw [if_pos e0]; exact base e0
      · rw [if_neg e0]
        obtain ⟨x, hx, h2, h3, h4, h5, h6⟩ := i.bestOk c q
        simp only [deref, hx]
        by_cases e1 : st.g x.src + x.clow ≠ st.g s
        · rw [if_pos e1]; exact .inl rfl
        · rw [if_neg e1]
          by_cases e2 : pc + x.cost + st.g x.src > gg
          · rw [if_pos e2]; exact .inr rfl
          · rw [if_neg e2]
            rcases h6 with ⟨_, h6⟩ | ⟨l1, a1, a2, a3, a4, a5, a6, a7⟩
            · omega
            · have ih := chain_post i hgg (fuel := fuel) (s := x.src) (pc := pc + x.cost) h3 h4 (by omega)
              revert ih
              cases chain st s0 gg fuel x.src (pc + x.cost) with
              | error e => exact id
              | ok r =>
                obtain ⟨l, n⟩ := r
                rintro ⟨L, m, b1, b2, b3, b5, b4⟩
                refine ⟨l1 ++ L, m + x.cost, ?_, ?_, by omega, ?_, ?_⟩
                · rw [List.reverse_append, ← List.cons_append]
                  exact pathCost_app b1 b2 a3
                · rw [List.reverse_append, ← List.cons_append, List.getLast?_append]
                  rw [h2] at a4
                  have : l1.reverse.getLast? = some s := by
                    have hne : l1.reverse ≠ [] := by simpa using a2
                    cases w : l1.reverse with
                    | nil => exact absurd w hne
                    | cons u v => rw [w, List.getLast?_cons_cons] at a4; exact a4
                  rw [this]; rfl
                · rw [List.getLast?_append]
                  cases w : L.getLast? with
                  | some u => rw [w] at b5; exact b5
                  | none =>
                    have hL : L = [] := List.getLast?_eq_none_iff.mp w
                    subst hL
                    have hs : s0 = x.src := by simpa using b2
                    intro q
                    have q : l1.getLast? = some s0 := q
                    exact a7 (hs ▸ List.mem_of_getLast? q)
                · by_cases hf : st.fwd
                  · rw [if_pos hf] at a1 b4 ⊢
                    rw [List.reverse_cons, List.flatMap_append, b4, List.reverse_append]
                    simp [a1]
                  · rw [if_neg hf] at a1 b4 ⊢
                    rw [List.flatMap_cons, b4, a1]

/-- the path and the cost that may be reported -/
def SolOk (G : Nat → List (Nat × Nat)) (fwd : Bool) (s0 gl : Nat) (sol : List Nat × Nat) : Prop :=
  gl ≠ s0 → sol.2 < INFINITECOST → ∃ L, PathCost G (s0 :: L.reverse) sol.2 ∧ (s0 :: L.reverse).getLast? = some gl ∧ L.getLast? ≠ some s0 ∧ sol.1 = (if fwd then L.reverse ++ [gl] else L ++ [s0])

theorem current_post {st : RStar} (i : HOk G s0 st) {gl : Nat} (c : Cur st gl) :
    PostC s0 gl (st.current s0 gl) (SolOk G st.fwd s0 gl) := by
  have none : SolOk G st.fwd s0 gl ([], INFINITECOST) := fun _ h => absurd h (Nat.lt_irrefl _)
  unfold current
  split
  · exact none
  next hg =>
    cases q : st.best gl with
    | none => exact .inr (.inr ⟨rfl, Classical.byContradiction fun hne => hg (i.gnone gl c hne q)⟩)
    | some a =>
      obtain ⟨x, hx, _⟩ := i.bestOk c q
      simp only [deref, hx]
      split
      · exact none
      next hp =>
        unfold getSearchPath
        by_cases hne : gl = s0
        · rw [if_pos hne]; exact fun h => absurd hne h
        rw [if_neg hne]
        split
        · exact none
        next hlt =>
          rw [q]
          simp only [deref, hx]
          rw [if_neg hp]
          have := chain_post i (gg := st.g gl) (by omega) (fuel := st.g gl + 1) (s := gl) (pc := 0) c (.inr (by rw [q]; simp)) (by omega)
          revert this
          cases chain st s0 (st.g gl) (st.g gl + 1) gl 0 with
          | error e =>
            rintro (h | h)
            · exact .inl h
            · exact .inr (.inl h)
          | ok r =>
            obtain ⟨l, n⟩ := r
            rintro ⟨L, m, b1, b2, b3, b5, b4⟩
            rw [Nat.zero_add] at b3
            subst b3
            dsimp only
            by_cases hf : st.fwd
            · rw [if_pos hf] at b4 ⊢
              intro _ _
              exact ⟨L, b1, b2, b5, by rw [if_pos hf, b4]⟩
            · rw [if_neg hf] at b4 ⊢
              intro _ _
              exact ⟨L, b1, b2, b5, by rw [if_neg hf, b4]⟩

/-- outcomes of the whole search -/
def PostS {α : Type} (s0 gl : Nat) (r : Except RErr α) (P : α → Prop) : Prop :=
  match r with
  | .ok a => P a
  | .error e => e = .heap .full ∨ e = .noTermination ∨ e = .clowMismatch ∨ e = .costExceeds ∨ e = .nullAct ∧ gl = s0

theorem Post.toS {α : Type} {r : Except RErr α} {P Q : α → Prop} (h : Post r P) {gl : Nat} (k : ∀ a, P a → Q a) : PostS s0 gl r Q := by
  unfold Post at h; unfold PostS
  split at h
  · exact k _ h
  · rcases h with h | h
    · exact .inl h
    · exact .inr (.inl h)

theorem searchLoop_post {clk : Nat → Bool} {gl : Nat} : ∀ {fuel : Nat} {st : RStar} {sol : List Nat × Nat}, RBase st →
    (∀ s t c, (t, c) ∈ nbr st.env st.fwd s → 1 ≤ c) → SolOk (nbr st.env st.fwd) st.fwd s0 gl sol → sol.2 ≤ INFINITECOST →
    PostS s0 gl (searchLoop clk s0 gl fuel st sol) (fun r => RBase r.1 ∧ r.1.env = st.env ∧ r.1.fwd = st.fwd ∧ r.1.start = st.start ∧ r.1.goal = st.goal ∧
      SolOk (nbr st.env st.fwd) st.fwd s0 gl r.2 ∧ r.2.2 ≤ INFINITECOST)
  | 0, _, _, _, _, _, _ => .inr (.inl rfl)
  | fuel + 1, st, sol, b, hpos, hs, hl => by
    unfold searchLoop
    by_cases hB : st.epsDone = true
    · rw [if_pos hB]; exact ⟨b, rfl, rfl, rfl, rfl, hs, hl⟩
    · rw [if_neg hB]
      by_cases hK : clk st.tk = true
      · rw [if_pos hK]; exact ⟨⟨b.leC, b.fresh, b.bp⟩, rfl, rfl, rfl, rfl, hs, hl⟩
      · rw [if_neg hK]
        obtain ⟨n1, n2, n3, n4, n5, n6, n7, n8, n9⟩ := nextEps_same { st with tk := st.tk + 1 }
        have b1 : RBase (nextEps { st with tk := st.tk + 1 }) :=
          ⟨by rw [n1, n2]; exact b.leC, by rw [n3, n4]; exact b.fresh, by rw [n5]; exact b.bp⟩
        have hr := reinitSpace_post (s0 := s0) (gl := gl) b1
        rw [n6, n7, n8, n9] at hr
        generalize reinitSpace (nextEps { st with tk := st.tk + 1 }) s0 gl = R at hr
        cases R with
        | error e => exact Post.toS (Q := fun _ => True) hr (fun _ _ => trivial)
        | ok st1 =>
          obtain ⟨i1, -, e1, e2, e3, e4⟩ := hr
          dsimp only
          have hi := improvePath_post (s0 := s0) hpos (clk := clk) (fuel := fuel) (gl := gl) i1
          generalize st1.improvePath clk fuel s0 gl = R at hi
          cases R with
          | error e => exact Post.toS (Q := fun _ => True) hi (fun _ _ => trivial)
          | ok r =>
            obtain ⟨st2, ret⟩ := r
            obtain ⟨i2, fr, cg⟩ := hi
            dsimp only at i2 fr cg ⊢
            have i3 : HOk (nbr st.env st.fwd) s0 (if ret then { st2 with epsSat := some st2.eps } else st2) := by
              split
              · exact ⟨i2.hG, i2.cur0, i2.leC, i2.fresh, i2.pred, i2.best, i2.gnone, i2.bp, i2.ord, i2.inheap⟩
              · exact i2
            have c3 : Cur (if ret then { st2 with epsSat := some st2.eps } else st2) gl := by split <;> exact cg
            have q1 : (if ret then { st2 with epsSat := some st2.eps } else st2).env = st.env := by split <;> exact fr.env.trans e1
            have q2 : (if ret then { st2 with epsSat := some st2.eps } else st2).fwd = st.fwd := by split <;> exact fr.fwd.trans e2
            have q3 : (if ret then { st2 with epsSat := some st2.eps } else st2).start = st.start := by split <;> exact fr.start.trans e3
            have q4 : (if ret then { st2 with epsSat := some st2.eps } else st2).goal = st.goal := by split <;> exact fr.goal.trans e4
            generalize (if ret then { st2 with epsSat := some st2.eps } else st2) = st3 at *
            have hc := current_post i3 c3
            generalize st3.current s0 gl = R at hc
            cases R with
            | error e => exact .inr (.inr hc)
            | ok cur =>
              dsimp only at hc ⊢
              rw [q2] at hc
              have hs1 : SolOk (nbr st.env st.fwd) st.fwd s0 gl (if cur.2 < sol.2 then cur else sol) := by split; exact hc; exact hs
              have hl1 : (if cur.2 < sol.2 then cur else sol).2 ≤ INFINITECOST := by split; omega; exact hl
              split
              · exact ⟨i3.base, q1, q2, q3, q4, hs1, hl1⟩
              · split
                · exact ⟨i3.base, q1, q2, q3, q4, hs1, hl1⟩
                · have := searchLoop_post (fuel := fuel) (clk := clk) (gl := gl) i3.base (by rw [q1, q2]; exact hpos) (by rw [q1, q2]; exact hs1) hl1
                  rw [q1, q2, q3, q4] at this
                  exact this

/-- one call of replan -/
theorem replan_post {st : RStar} {clk : Nat → Bool} {fuel gl : Nat} (b : RBase st) (h1 : st.start = some s0) (h2 : st.goal = some gl)
    (hpos : ∀ s t c, (t, c) ∈ nbr st.env st.fwd s → 1 ≤ c) :
    PostS s0 gl (st.replan clk fuel) (fun r => RBase r.1 ∧ r.1.env = st.env ∧ r.1.fwd = st.fwd ∧ r.1.start = st.start ∧ r.1.goal = st.goal ∧
      SolOk (nbr st.env st.fwd) st.fwd s0 gl (r.2.path, r.2.cost) ∧ r.2.cost ≤ INFINITECOST ∧ (r.2.found = true ↔ r.2.cost ≠ INFINITECOST)) := by
  have e0 : st.replan clk fuel = st.search s0 gl clk fuel := by unfold replan; rw [h1, h2]
  rw [e0]
  unfold search
  dsimp only
  have b1 : RBase { st with eps := st.iniEps, epsSat := none, tk := 0 } := ⟨b.leC, b.fresh, b.bp⟩
  have hr : Post (if st.bReinit = true then reinitSpace { st with eps := st.iniEps, epsSat := none, tk := 0 } s0 gl else .ok { st with eps := st.iniEps, epsSat := none, tk := 0 })
      (fun st' => RBase st' ∧ st'.env = st.env ∧ st'.fwd = st.fwd ∧ st'.start = st.start ∧ st'.goal = st.goal) := by
    split
    · exact (reinitSpace_post b1).mono (fun a h => ⟨h.1.base, h.2.2.1, h.2.2.2.1, h.2.2.2.2.1, h.2.2.2.2.2⟩)
    · exact ⟨b1, rfl, rfl, rfl, rfl⟩
  generalize (if st.bReinit = true then reinitSpace { st with eps := st.iniEps, epsSat := none, tk := 0 } s0 gl else .ok { st with eps := st.iniEps, epsSat := none, tk := 0 }) = R at hr
  cases R with
  | error e => exact Post.toS (Q := fun _ => True) hr (fun _ _ => trivial)
  | ok st2 =>
    obtain ⟨b2, e1, e2, e3, e4⟩ := hr
    have hs := searchLoop_post (s0 := s0) (gl := gl) (st := st2) (clk := clk) (fuel := fuel) (sol := ([], INFINITECOST)) b2 (by rw [e1, e2]; exact hpos)
      (fun _ h => absurd h (Nat.lt_irrefl _)) (Nat.le_refl _)
    dsimp only
    rw [e1, e2, e3, e4] at hs
    generalize searchLoop clk s0 gl fuel st2 ([], INFINITECOST) = R at hs
    cases R with
    | error e => exact hs
    | ok r =>
      obtain ⟨st3, sol⟩ := r
      obtain ⟨c1, c2, c3, c4, c5, c6, c7⟩ := hs
      refine ⟨c1, c2, c3, c4, c5, c6, c7, ?_⟩
      show decide (sol.2 ≠ INFINITECOST) = true ↔ _
      rw [decide_eq_true_iff]

theorem init_base (env : REnv) (fwd : Bool) (D ini dec fin thr : Nat) : RBase (init env fwd D ini dec fin thr) := by
  refine ⟨fun _ => Nat.le_refl _, fun _ _ => rfl, ?_, ?_⟩
  · intro i h1 h2; simp [init, Heap.mk0] at h2; omega
  · intro s h; simp [init, Heap.mk0] at h

/-- all edges of the environment cost at least 1 -/
def EnvPos (env : REnv) : Prop := (∀ s t c, (t, c) ∈ env.succs s → 1 ≤ c) ∧ (∀ s t c, (t, c) ∈ env.preds s → 1 ≤ c)

theorem EnvPos.nbr {env : REnv} (h : EnvPos env) {fwd : Bool} : ∀ s t c, (t, c) ∈ nbr env fwd s → 1 ≤ c := by
  intro s t c
  unfold RStar.nbr
  split
  · exact h.1 s t c
  · exact h.2 s t c

theorem run_base : ∀ {ops : List Op} {st st' : RStar}, (∀ env, Op.costsChanged env ∈ ops → EnvPos env) → RBase st → EnvPos st.env → st.run ops = some st' →
    RBase st' ∧ EnvPos st'.env ∧ st'.fwd = st.fwd
  | [], st, st', _, b, p, e => by cases e; exact ⟨b, p, rfl⟩
  | op :: ops, st, st', h, b, p, e => by
    unfold run at e
    have h' : ∀ env, Op.costsChanged env ∈ ops → EnvPos env := fun env q => h env (List.mem_cons_of_mem _ q)
    have go : ∀ st1 : RStar, st.step op = some st1 → RBase st1 → EnvPos st1.env → st1.fwd = st.fwd → RBase st' ∧ EnvPos st'.env ∧ st'.fwd = st.fwd := by
      intro st1 hs b1 p1 f1
      rw [hs] at e
      obtain ⟨a1, a2, a3⟩ := run_base h' b1 p1 e
      exact ⟨a1, a2, a3.trans f1⟩
    cases op with
    | setStart s =>
      refine go _ rfl ?_ ?_ ?_ <;> simp only [setStart, setSearchStart, setSearchGoal] <;> repeat' split
      all_goals first | exact p | rfl | exact ⟨b.leC, b.fresh, b.bp⟩
    | setGoal s =>
      refine go _ rfl ?_ ?_ ?_ <;> simp only [setGoal, setSearchStart, setSearchGoal] <;> repeat' split
      all_goals first | exact p | rfl | exact ⟨b.leC, b.fresh, b.bp⟩
    | costsChanged env => exact go _ rfl ⟨b.leC, b.fresh, b.bp⟩ (h env List.mem_cons_self) rfl
    | forceScratch => exact go _ rfl ⟨b.leC, b.fresh, b.bp⟩ p rfl
    | setMode f => exact go _ rfl ⟨b.leC, b.fresh, b.bp⟩ p rfl
    | setParams i d t => exact go _ rfl ⟨b.leC, b.fresh, b.bp⟩ p rfl
    | replan clk fuel =>
      cases hr : st.replan clk fuel with
      | error x =>
        have : st.step (.replan clk fuel) = none := by simp only [step, hr]
        rw [this] at e; cases e
      | ok r =>
        obtain ⟨st1, res⟩ := r
        have hstep : st.step (.replan clk fuel) = some st1 := by simp only [step, hr]
        cases h1 : st.start with
        | none => unfold replan at hr; rw [h1] at hr; cases hr
        | some s0 =>
          cases h2 : st.goal with
          | none => unfold replan at hr; rw [h1, h2] at hr; cases hr
          | some gl =>
            have := replan_post (clk := clk) (fuel := fuel) b h1 h2 p.nbr
            rw [hr] at this
            obtain ⟨a1, a2, a3, _⟩ := this
            exact go _ hstep a1 (by rw [a2]; exact p) a3

end Sbpl.RStar
