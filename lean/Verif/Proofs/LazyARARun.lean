import Verif.Proofs.LazyARASearch
/-! Lazy ARA*: GetSearchPath, initializeSearch, Search, histories of calls. -/

namespace Sbpl.LazyARA
open LazySpec Heap

variable {wf : (LazyElem → Nat) → List LazyElem → Prop}

/-! ### paths -/

theorem rpath_snoc {E : Rel} {l : List Nat} {k a t c : Nat} (p : RPath E l k) (h : l.getLast? = some a) (e : E a t c) : RPath E (l ++ [t]) (k + c) := by
  induction p with
  | single s =>
    simp only [List.getLast?_singleton, Option.some.injEq] at h
    subst h
    have := RPath.cons e (RPath.single t)
    simpa [Nat.add_comm] using this
  | @cons s t' c' n p e' p' ih =>
    have h' : (t' :: p).getLast? = some a := by simpa using h
    have := RPath.cons e' (ih h')
    simpa [Nat.add_assoc] using this

theorem rpath_flip {E : Rel} {l : List Nat} {k : Nat} (p : RPath E l k) : RPath (fun a b c => E b a c) l.reverse k := by
  induction p with
  | single s => exact RPath.single s
  | @cons s t c n p e _ ih =>
    have h : (t :: p).reverse.getLast? = some t := by simp
    have := rpath_snoc (E := fun a b c => E b a c) (c := c) (t := s) ih h e
    rw [List.reverse_cons, Nat.add_comm c n]; exact this

theorem actionCost_aux (t c : Nat) (es : List (Nat × Nat × Bool)) : ∀ a,
    (a ≤ c ∨ ∃ f, (t, c, f) ∈ es) → es.foldl (fun a e => if e.1 = t ∧ e.2.1 < a then e.2.1 else a) a ≤ c := by
  induction es with
  | nil =>
    intro a h
    rcases h with h | ⟨f, h⟩
    · exact h
    · cases h
  | cons e es ih =>
    intro a h
    apply ih
    rcases h with h | ⟨f, h⟩
    · left
      dsimp only
      split <;> omega
    · rcases List.mem_cons.mp h with h | h
      · left
        rw [← h]
        simp only [true_and]
        split <;> omega
      · exact .inr ⟨f, h⟩

theorem actionCost_le {t c : Nat} {f : Bool} {es : List (Nat × Nat × Bool)} (h : (t, c, f) ∈ es) : actionCost es t ≤ c :=
  actionCost_aux t c es _ (.inr ⟨f, h⟩)

/-- the edges as GetSearchPath values them -/
def Cheap (st : LazyARA) : Rel := fun p s c => (∀ c' f, (s, c', f) ∈ st.nbr p → c ≤ c') ∧ (c = INF ∨ ∃ f, (s, c, f) ∈ st.nbr p)

theorem actionCost_in (t : Nat) (es : List (Nat × Nat × Bool)) : ∀ a,
    es.foldl (fun a e => if e.1 = t ∧ e.2.1 < a then e.2.1 else a) a = a ∨
      ∃ f, (t, es.foldl (fun a e => if e.1 = t ∧ e.2.1 < a then e.2.1 else a) a, f) ∈ es := by
  induction es with
  | nil => intro a; exact .inl rfl
  | cons e es ih =>
    intro a
    rw [List.foldl_cons]
    by_cases h : e.1 = t ∧ e.2.1 < a
    · rw [if_pos h]
      rcases ih e.2.1 with h1 | ⟨f, h1⟩
      · right
        rw [h1]
        refine ⟨e.2.2, ?_⟩
        have : e = (t, e.2.1, e.2.2) := by rw [← h.1]
        rw [← this]; exact List.mem_cons_self
      · exact .inr ⟨f, List.mem_cons_of_mem _ h1⟩
    · rw [if_neg h]
      rcases ih a with h1 | ⟨f, h1⟩
      · exact .inl h1
      · exact .inr ⟨f, List.mem_cons_of_mem _ h1⟩

theorem cheap_cost (st : LazyARA) (p s : Nat) : st.Cheap p s (actionCost (st.nbr p) s) :=
  ⟨fun _ _ h => actionCost_le h, actionCost_in s _ _⟩

theorem edge_cost {st : LazyARA} {p s c : Nat} (low : Low st) (e : st.E p s c) : actionCost (st.nbr p) s ≤ c := by
  rcases e with h | ⟨lc, h1, h2, h3⟩
  · exact actionCost_le h
  · have := actionCost_le h1
    have := low p s lc h1 (by rw [h2]; omega)
    rw [h2] at this
    omega

structure BackPost (st : LazyARA) (s0 s : Nat) (l : List Nat) (c k : Nat) : Prop where
  path : RPath st.E l.reverse k
  head : l.head? = some s
  last : l.getLast? = some s0
  le : k ≤ st.v s
  low : Low st → c ≤ k
  cheap : RPath st.Cheap l.reverse c

theorem walkBack_spec {st : LazyARA} {s0 gl : Nat} (pos : ∀ p s c, st.E p s c → 1 ≤ c)
    (ptr : ∀ s, st.acc s → st.v s < INF → s ≠ s0 → s ≠ gl → ∃ p c, st.epar s = some p ∧ st.acc p ∧ st.E p s c ∧ st.v p + c ≤ st.v s) :
    ∀ fuel s, st.acc s → st.v s < INF → st.v s < st.v gl → st.v s < fuel →
      ∃ l c k, walkBack s0 fuel st s = .ok (l, c) ∧ BackPost st s0 s l c k := by
  intro fuel
  induction fuel with
  | zero => intro s _ _ _ h; omega
  | succ n ih =>
    intro s a l lg lf
    unfold walkBack
    by_cases q : s = s0
    · rw [if_pos q]
      refine ⟨[s], 0, 0, rfl, RPath.single s, rfl, by rw [q]; rfl, Nat.zero_le _, fun _ => Nat.le_refl _, RPath.single s⟩
    · rw [if_neg q]
      have ng : s ≠ gl := by rintro rfl; omega
      obtain ⟨p, c, h1, h2, h3, h4⟩ := ptr s a l q ng
      have := pos _ _ _ h3
      rw [h1]
      simp only
      rw [if_neg (by show ¬ st.v s = INF; omega)]
      obtain ⟨l', c', k', e, bp⟩ := ih p h2 (by omega) (by omega) (by omega)
      rw [e]
      refine ⟨s :: l', actionCost (st.nbr p) s + c', k' + c, rfl, ?_, rfl, ?_, ?_, ?_, ?_⟩
      · rw [List.reverse_cons]
        refine rpath_snoc bp.path ?_ h3
        rw [List.getLast?_reverse]; exact bp.head
      · rw [List.getLast?_cons, bp.last]; rfl
      · have := bp.le; omega
      · intro low
        have := edge_cost low h3
        have := bp.low low
        omega
      · rw [List.reverse_cons, Nat.add_comm]
        refine rpath_snoc bp.cheap ?_ (cheap_cost st p s)
        rw [List.getLast?_reverse]; exact bp.head

/-- what is known of a path `l` (in the order of GetSearchPath, goal first) for a goal of value `x` -/
structure PathPost (st : LazyARA) (s0 gl : Nat) (out : Prop) (l : List Nat) (c x : Nat) : Prop where
  head : l.head? = some gl
  last : l.getLast? = some s0
  cheap : RPath st.Cheap l.reverse c
  real : (∃ k, RPath st.E l.reverse k ∧ k ≤ x ∧ (Low st → c ≤ k)) ∨
    (out ∧ ∃ q p k, l = gl :: q ∧ q.head? = some p ∧ q.getLast? = some s0 ∧ RPath st.E q.reverse k ∧ ∃ lc, (gl, lc, false) ∈ st.nbr p)

/-- the same for states that differ in nothing but the values -/
theorem PathPost.congr {a b : LazyARA} {s0 gl : Nat} {out : Prop} {l : List Nat} {c x : Nat} (nb : b.nbr = a.nbr) (tc : b.trueCost = a.trueCost)
    (h : PathPost b s0 gl out l c x) : PathPost a s0 gl out l c x := by
  have EE : b.E = a.E := by unfold LazyARA.E; rw [nb, tc]
  have LL : Low a → Low b := by intro l; unfold Low; rw [nb, tc]; exact l
  refine ⟨h.head, h.last, by have := h.cheap; unfold Cheap at this ⊢; rw [← nb]; exact this, ?_⟩
  rcases h.real with ⟨k, h1, h2, h3⟩ | ⟨h0, q, p, k, h1, h2, h3, h4, h5⟩
  · exact .inl ⟨k, by rw [← EE]; exact h1, h2, fun l => h3 (LL l)⟩
  · exact .inr ⟨h0, q, p, k, h1, h2, h3, by rw [← EE]; exact h4, by rw [← nb]; exact h5⟩

/-- the goal has a back pointer -/
theorem goalBack {st : LazyARA} {s0 gl : Nat} {out : Prop} {fuel p : Nat} (pos : ∀ p s c, st.E p s c → 1 ≤ c)
    (ptr : ∀ s, st.acc s → st.v s < INF → s ≠ s0 → s ≠ gl → ∃ p c, st.epar s = some p ∧ st.acc p ∧ st.E p s c ∧ st.v p + c ≤ st.v s)
    (n : gl ≠ s0) (lt : st.v gl < INF) (ep : st.epar gl = some p) (lo : LastOk st gl out p (st.v gl)) (lf : st.v gl < fuel) :
    ∃ l c, walkBack s0 fuel st gl = .ok (l, c) ∧ PathPost st s0 gl out l c (st.v gl) := by
  cases fuel with
  | zero => omega
  | succ m =>
    unfold walkBack
    rw [if_neg n, ep]
    simp only
    rw [if_neg (by show ¬ st.v gl = INF; omega)]
    obtain ⟨ap, lo⟩ := lo
    have vp : st.v p < st.v gl := by
      rcases lo with ⟨c, h1, h2⟩ | ⟨_, _, h2⟩
      · have := pos _ _ _ h1; omega
      · omega
    obtain ⟨l', c', k', e, bp⟩ := walkBack_spec pos ptr m p ap (by omega) vp (by omega)
    rw [e]
    refine ⟨gl :: l', _, rfl, rfl, ?_, ?_, ?_⟩
    · rw [List.getLast?_cons, bp.last]; rfl
    · rw [List.reverse_cons, Nat.add_comm]
      refine rpath_snoc bp.cheap ?_ (cheap_cost st p gl)
      rw [List.getLast?_reverse]; exact bp.head
    · rcases lo with ⟨c, h1, h2⟩ | ⟨ho, hl, _⟩
      · left
        refine ⟨k' + c, ?_, ?_, ?_⟩
        · rw [List.reverse_cons]
          refine rpath_snoc bp.path ?_ h1
          rw [List.getLast?_reverse]; exact bp.head
        · have := bp.le; omega
        · intro low
          have := edge_cost low h1
          have := bp.low low
          omega
      · exact .inr ⟨ho, l', p, k', rfl, bp.head, bp.last, bp.path, hl⟩

theorem getSearchPath_spec {st : LazyARA} {s0 gl fuel : Nat} {out : Prop} (pos : ∀ p s c, st.E p s c → 1 ≤ c) (t : Tail st s0 gl out)
    (gi : st.g gl ≠ INF) (hf : st.g gl + st.v gl < fuel) :
    ∃ st' l c x, st.getSearchPath fuel s0 gl = .ok (st', if st.fwd then l.reverse else l, c) ∧ FrS st st' ∧ st'.heap = st.heap ∧
      st'.epsSat = st.epsSat ∧ x ≤ st.v gl ∧ PathPost st s0 gl out l c x := by
  have gI := t.gInf
  have g0 := t.start
  have vI := t.vInf
  unfold getSearchPath
  simp only
  by_cases pre : st.epar gl = none
  · simp only [pre, if_true]
    generalize hst1 : ({ st with epar := upd st.epar gl (st.par gl), v := upd st.v gl (st.g gl) } : LazyARA) = st1
    have nb : st1.nbr = st.nbr := by rw [← hst1]; rfl
    have tc : st1.trueCost = st.trueCost := by rw [← hst1]; rfl
    have EE : st1.E = st.E := by rw [← hst1]; rfl
    have vs : st1.v gl = st.g gl := by rw [← hst1]; exact upd_same _ _ _
    have vo : ∀ u, u ≠ gl → st1.v u = st.v u := by intro u h; rw [← hst1]; exact upd_other _ _ h
    have es : st1.epar gl = st.par gl := by rw [← hst1]; exact upd_same _ _ _
    have eo : ∀ u, u ≠ gl → st1.epar u = st.epar u := by intro u h; rw [← hst1]; exact upd_other _ _ h
    have ac : ∀ u, st1.acc u ↔ st.acc u := by intro u; rw [← hst1]; exact Iff.rfl
    have frs : ∀ a b, FrS st { st with epar := a, v := b } := by
      intro a b; exact ⟨rfl, rfl, rfl, rfl, rfl, rfl, rfl, rfl, rfl, rfl, rfl, fun _ => .inl rfl⟩
    by_cases n : gl = s0
    · have e : walkBack s0 fuel st1 gl = .ok ([gl], 0) := by
        cases fuel with
        | zero => omega
        | succ m => unfold walkBack; rw [if_pos n]
      rw [e]
      exact ⟨_, [gl], 0, 0, rfl, frs _ _, rfl, rfl, Nat.zero_le _, rfl, by rw [n]; rfl, RPath.single gl,
        .inl ⟨0, RPath.single gl, Nat.zero_le _, fun _ => Nat.le_refl _⟩⟩
    · have v1 : st.v gl = INF := by
        by_contra c
        obtain ⟨p, h, _⟩ := t.goalV n (by omega)
        rw [pre] at h; cases h
      obtain ⟨p, h1, h2⟩ := (t.goalG n v1).2 (by omega)
      have vp : p ≠ gl := by
        rintro rfl
        rcases h2.2 with ⟨c, _, h⟩ | ⟨_, _, h⟩ <;> omega
      have lo : LastOk st1 gl out p (st1.v gl) := by
        refine ⟨(ac p).mpr h2.1, ?_⟩
        rw [vs, vo p vp, EE, nb]; exact h2.2
      obtain ⟨l, c, e, pp⟩ := goalBack (st := st1) (fuel := fuel) (by rw [EE]; exact pos) (by
        intro s a l ns ng
        rw [vo s ng] at l ⊢
        obtain ⟨p, c, x1, x2, x3, x4⟩ := t.ptr s ((ac s).mp a) l ns ng
        have : p ≠ gl := by rintro rfl; omega
        exact ⟨p, c, by rw [eo s ng]; exact x1, (ac p).mpr x2, by rw [EE]; exact x3, by rw [vo p this]; exact x4⟩) n (by rw [vs]; omega)
        (by rw [es]; exact h1) lo (by rw [vs]; omega)
      rw [vs] at pp
      rw [e]
      exact ⟨_, l, c, st.g gl, rfl, frs _ _, rfl, rfl, by omega, pp.congr nb tc⟩
  · simp only [pre, if_false]
    have n : gl = s0 ∨ st.v gl < INF := by
      by_cases q : gl = s0
      · exact .inl q
      · right
        by_contra c
        exact pre (t.goalG q (by omega)).1
    by_cases q : gl = s0
    · have e : walkBack s0 fuel st gl = .ok ([gl], 0) := by
        cases fuel with
        | zero => omega
        | succ m => unfold walkBack; rw [if_pos q]
      rw [e]
      exact ⟨_, [gl], 0, 0, rfl, FrS.refl st, rfl, rfl, Nat.zero_le _, rfl, by rw [q]; rfl, RPath.single gl,
        .inl ⟨0, RPath.single gl, Nat.zero_le _, fun _ => Nat.le_refl _⟩⟩
    · have lt := n.resolve_left q
      obtain ⟨p, h1, h2⟩ := t.goalV q lt
      obtain ⟨l, c, e, pp⟩ := goalBack (fuel := fuel) pos t.ptr q lt h1 h2 (by omega)
      rw [e]
      exact ⟨_, l, c, _, rfl, FrS.refl st, rfl, rfl, Nat.le_refl _, pp⟩

/-! ### initializeSearch -/

/-- the heuristic values read before the update -/
def hPre (st : LazyARA) (s : Nat) : Nat := if st.fwd then st.env.hGoalPre s else st.env.hStartPre s

structure Fresh (st : LazyARA) (L : Nat → Prop) : Prop where
  acc : ∀ u, st.acc u ↔ L u
  g : ∀ u, L u → st.g u = INF
  v : ∀ u, L u → st.v u = INF
  it : ∀ u, L u → st.iterC u = SHORT - 1
  ep : ∀ u, L u → st.epar u = none
  inc : ∀ u, L u → st.inInc u = false
  tru : ∀ u, L u → st.isTrue u = true
  lzy : ∀ u, L u → st.lazy u = []
  h : ∀ u, L u → st.h u = st.hPre u
  bp : BP st.heap
  ord : Ordered st.heap
  key : ∀ u, keyOf st.heap u = none

theorem getPre_spec {st : LazyARA} {L : Nat → Prop} (f : Fresh st L) (s : Nat) :
    Fresh (st.getStatePre s) (fun u => L u ∨ u = s) ∧ FrS st (st.getStatePre s) ∧ (st.getStatePre s).incons = st.incons ∧
      (st.getStatePre s).iter = st.iter ∧ (st.getStatePre s).eps = st.eps ∧ (st.getStatePre s).epsSat = st.epsSat := by
  unfold getStatePre
  split
  next na =>
    have nl : ¬ L s := fun h => na ((f.acc s).mpr h)
    have hp : ({ st.heap with idx := upd st.heap.idx s 0 } : Heap CKey) = st.heap := by
      have : upd st.heap.idx s 0 = st.heap.idx := by
        have := ARA.keyOf_none.mp (f.key s)
        funext u; unfold upd; split
        · next q => rw [q, this]
        · rfl
      rw [this]
    have hE : ∀ hv, (st.initState s hv).heap = st.heap := fun _ => hp
    have key : ∀ {α : Type} (F : Nat → α) (y : α) (P : Nat → α → Prop), (∀ u, L u → P u (F u)) → P s y → ∀ u, L u ∨ u = s → P u (upd F s y u) := by
      intro α F y P h1 h2 u hu
      by_cases q : u = s
      · rw [q, upd_same]; exact h2
      · rw [upd_other _ _ q]; exact h1 u (hu.resolve_right q)
    refine ⟨⟨?_, ?_, ?_, ?_, ?_, ?_, ?_, ?_, ?_, ?_, ?_, ?_⟩, ⟨rfl, rfl, rfl, rfl, rfl, rfl, rfl, rfl, rfl, rfl, rfl, ?_⟩, rfl, rfl, rfl, rfl⟩
    · intro u
      show upd st.rn s st.num u = st.num ↔ _
      by_cases q : u = s
      · rw [q, upd_same]; simp
      · rw [upd_other _ _ q]
        have := f.acc u
        unfold LazyARA.acc at this
        rw [this]; simp [q]
    · exact key st.g _ (fun _ x => x = INF) f.g rfl
    · exact key st.v _ (fun _ x => x = INF) f.v rfl
    · exact key st.iterC _ (fun _ x => x = SHORT - 1) f.it rfl
    · exact key st.epar _ (fun _ x => x = none) f.ep rfl
    · exact key st.inInc _ (fun _ x => x = false) f.inc rfl
    · exact key st.isTrue _ (fun _ x => x = true) f.tru rfl
    · exact key st.lazy _ (fun _ x => x = []) f.lzy rfl
    · exact key st.h _ (fun u x => x = st.hPre u) f.h rfl
    · rw [hE]; exact f.bp
    · rw [hE]; exact f.ord
    · intro u; rw [hE]; exact f.key u
    · intro u
      show upd st.rn s st.num u = _ ∨ upd st.rn s st.num u = _
      by_cases q : u = s
      · rw [q, upd_same]; exact .inr rfl
      · rw [upd_other _ _ q]; exact .inl rfl
  next na =>
    have hl : L s := (f.acc s).mp (Classical.not_not.mp na)
    have : (fun u => L u ∨ u = s) = L := by
      funext u
      apply propext
      constructor
      · rintro (h | h)
        · exact h
        · rw [h]; exact hl
      · exact .inl
    rw [this]
    exact ⟨f, FrS.refl st, rfl, rfl, rfl, rfl⟩

/-- what a planner carries from one call of replan to the next -/
structure Hist (st : LazyARA) : Prop where
  bp : BP st.heap
  rn : ∀ s, st.rn s ≤ st.num ∨ st.rn s = SHORT - 1

structure InitPost (wf : (LazyElem → Nat) → List LazyElem → Prop) (st : LazyARA) (s0 gl n : Nat) (st' : LazyARA) : Prop where
  frs : FrS { st with num := st.num + 1 } st'
  enter : Enter wf st' s0 gl st.hPre n
  opt : Opt wf st' s0 (pg gl)
  eps : st'.eps = st.initEps
  sat : st'.epsSat = none

theorem init_spec {st : LazyARA} {s0 gl n : Nat} (q : QueueOk st.Q wf) (pos : ∀ p s c f, (s, c, f) ∈ st.nbr p → 1 ≤ c) (hs : Hist st)
    (nm : st.num + 1 < SHORT - 1) (nn : n < SHORT - 1) : OkOr (st.initSearch s0 gl) (InitPost wf st s0 gl n) := by
  obtain ⟨m1, m2, m3, m4, _⟩ := makeEmpty_spec hs.bp
  have mod : (st.num + 1) % SHORT = st.num + 1 := Nat.mod_eq_of_lt (by omega)
  obtain ⟨st1, hst1⟩ : ∃ st1, st1 = ({ st with num := (st.num + 1) % SHORT, iter := 0, heap := st.heap.makeEmpty, incons := [], eps := st.initEps, epsSat := none } : LazyARA) := ⟨_, rfl⟩
  have f1 : Fresh st1 (fun _ => False) := by
    refine ⟨?_, ?_, ?_, ?_, ?_, ?_, ?_, ?_, ?_, ?_, ?_, ?_⟩
    case refine_1 =>
      intro u
      rw [hst1]
      show st.rn u = (st.num + 1) % SHORT ↔ False
      rw [mod]
      have := hs.rn u
      constructor
      · intro h; omega
      · exact False.elim
    case refine_10 => rw [hst1]; exact m1
    case refine_11 => rw [hst1]; exact m4
    case refine_12 => rw [hst1]; exact m2
    all_goals exact fun _ h => h.elim
  have fr1 : FrS { st with num := st.num + 1 } st1 := by
    rw [hst1, mod]; exact ⟨rfl, rfl, rfl, rfl, rfl, rfl, rfl, rfl, rfl, rfl, rfl, fun _ => .inl rfl⟩
  -- both orders of the two GetState calls
  have both : ∀ a b, ∃ st2, st2 = (st1.getStatePre a).getStatePre b ∧ Fresh st2 (fun u => u = a ∨ u = b) ∧ FrS st1 st2 ∧ st2.incons = [] ∧ st2.iter = 0 ∧
      st2.eps = st.initEps ∧ st2.epsSat = none := by
    intro a b
    obtain ⟨g1, g2, g3, g4, g5, g6⟩ := getPre_spec f1 a
    obtain ⟨k1, k2, k3, k4, k5, k6⟩ := getPre_spec g1 b
    refine ⟨_, rfl, ?_, g2.trans k2, ?_, ?_, ?_, ?_⟩
    · have : (fun u => u = a ∨ u = b) = (fun u => (False ∨ u = a) ∨ u = b) := by funext u; simp
      rw [this]; exact k1
    · rw [k3, g3, hst1]
    · rw [k4, g4, hst1]
    · rw [k5, g5, hst1]
    · rw [k6, g6, hst1]
  obtain ⟨st2, e2, f2, fr2, in2, it2, ep2, sa2⟩ : ∃ st2, st2 = (if st.fwd then (st1.getStatePre gl).getStatePre s0 else (st1.getStatePre s0).getStatePre gl) ∧
      Fresh st2 (fun u => u = s0 ∨ u = gl) ∧ FrS st1 st2 ∧ st2.incons = [] ∧ st2.iter = 0 ∧ st2.eps = st.initEps ∧ st2.epsSat = none := by
    cases st.fwd with
    | true =>
      obtain ⟨x, h1, h2, h3⟩ := both gl s0
      refine ⟨x, by simpa using h1, ?_, h3⟩
      have : (fun u => u = s0 ∨ u = gl) = (fun u => u = gl ∨ u = s0) := by funext u; simp [or_comm]
      rw [this]; exact h2
    | false =>
      obtain ⟨x, h1, h2, h3⟩ := both s0 gl
      exact ⟨x, by simpa using h1, h2, h3⟩
  have hpre : st2.hPre = st.hPre := by
    have := (fr1.trans fr2)
    funext u; unfold hPre; rw [this.fwd, this.env]
  have fr := fr1.trans fr2
  have Dn : st2.nbr = st.nbr := fr.nbr
  have Dt : st2.trueCost = st.trueCost := fr.tc
  unfold initSearch
  simp only
  rw [← hst1, ← e2]
  cases e : st2.heap.insert s0 ⟨((ARA.infl st2.D st2.eps (st2.h s0) : Nat) : Int), 0⟩ with
  | error x => exact congrArg Err.heap (ARA.heap_insert_err (f2.key s0) e)
  | ok h =>
    obtain ⟨b1, b2, _, b4, _⟩ := Heap.insert_spec f2.bp e
    have ks : keyOf h s0 = some ⟨((ARA.infl st2.D st2.eps (st2.h s0) : Nat) : Int), 0⟩ := by rw [b2, upd_same]
    have ko : ∀ u, u ≠ s0 → keyOf h u = none := by intro u qq; rw [b2, upd_other _ _ qq]; exact f2.key u
    generalize hst3 : ({ st2 with g := upd st2.g s0 0, heap := h } : LazyARA) = st3
    suffices P : InitPost wf st s0 gl n st3 by rw [← hst3] at P; exact P
    have nb3 : st3.nbr = st2.nbr := by rw [← hst3]; rfl
    have ac : ∀ u, st3.acc u ↔ u = s0 ∨ u = gl := by intro u; rw [← hst3]; exact f2.acc u
    have v3 : ∀ u, st3.acc u → st3.v u = INF := by intro u hu; have := f2.v u ((ac u).mp hu); rw [← hst3]; exact this
    have gs : st3.g s0 = 0 := by rw [← hst3]; exact upd_same _ _ _
    have go : ∀ u, u ≠ s0 → st3.acc u → st3.g u = INF := by
      intro u qq hu
      rw [← hst3]
      show upd st2.g s0 0 u = INF
      rw [upd_other _ _ qq]; exact f2.g u ((ac u).mp hu)
    have t3 : ∀ u, st3.acc u → st3.isTrue u = true := by intro u hu; have := f2.tru u ((ac u).mp hu); rw [← hst3]; exact this
    have l3 : ∀ u, st3.acc u → st3.lazy u = [] := by intro u hu; have := f2.lzy u ((ac u).mp hu); rw [← hst3]; exact this
    have i3 : ∀ u, st3.acc u → st3.iterC u = SHORT - 1 := by intro u hu; have := f2.it u ((ac u).mp hu); rw [← hst3]; exact this
    have n3 : ∀ u, st3.acc u → st3.inInc u = false := by intro u hu; have := f2.inc u ((ac u).mp hu); rw [← hst3]; exact this
    have ep3 : ∀ u, st3.acc u → st3.epar u = none := by intro u hu; have := f2.ep u ((ac u).mp hu); rw [← hst3]; exact this
    have hp3 : st3.heap = h := by rw [← hst3]
    have in3 : st3.incons = [] := by rw [← hst3]; exact in2
    have it3 : st3.iter = 0 := by rw [← hst3]; exact it2
    have a0 : st3.acc s0 := (ac s0).mpr (.inl rfl)
    have ag : st3.acc gl := (ac gl).mpr (.inr rfl)
    have fr3 : FrS st2 st3 := by rw [← hst3]; exact ⟨rfl, rfl, rfl, rfl, rfl, rfl, rfl, rfl, rfl, rfl, rfl, fun _ => .inl rfl⟩
    have sd : Sound st3 s0 := by
      refine ⟨a0, gs, t3 s0 a0, .inl (v3 s0 a0), fun s hs => Nat.le_of_eq (v3 s hs), ?_, ?_, ?_, ?_, fun s hs _ => l3 s hs, ?_⟩
      · intro s hs
        by_cases qq : s = s0
        · left; rw [v3 s hs, qq, gs]; decide
        · right; right; exact go s qq hs
      · intro s hs hf; rw [t3 s hs] at hf; cases hf
      · intro s hs _ lt ne; rw [go s ne hs] at lt; omega
      · intro s hs e he; rw [l3 s hs] at he; cases he
      · intro s hs lt; rw [v3 s hs] at lt; omega
    have hi : HInv st3 gl none := by
      refine ⟨by rw [hp3]; exact b1, by rw [hp3]; exact b4 f2.ord, ?_, ?_, ?_, ?_, ?_, ?_, ?_, ?_, ?_, ?_, ?_, ?_⟩
      · intro s hs
        rw [hp3]; exact ko s (by rintro rfl; exact hs a0)
      · rw [in3]; simp
      · rw [in3]; simp
      · intro s hs; rw [in3, n3 s hs]; simp
      · intro s k _ hk
        rw [hp3] at hk
        have qq : s = s0 := by
          by_contra c; rw [ko s c] at hk; cases hk
        rw [qq, ks] at hk
        cases hk
        have e1 : st3.D = st2.D := by rw [← hst3]
        have e2 : st3.eps = st2.eps := by rw [← hst3]
        have e3 : st3.h = st2.h := by rw [← hst3]
        unfold keyFor
        rw [qq, gs, e1, e2, e3, Nat.zero_add]
      · intro s hk
        rw [hp3] at hk
        have qq : s = s0 := by
          by_contra c; exact hk (ko s c)
        left; rw [qq, gs, v3 s0 a0]; decide
      · rw [in3]; simp
      · intro s _ hs lt
        left
        have qq : s = s0 := by
          by_contra c; rw [go s c hs, v3 s hs] at lt; omega
        rw [hp3, qq, ks]; simp
      · intro s hk
        rw [hp3] at hk
        have qq : s = s0 := by
          by_contra c; exact hk (ko s c)
        rw [qq, i3 s0 a0, it3]; decide
      · rw [in3]; simp
      · intro s hs; exact .inr (i3 s hs)
      · rw [it3]; decide
    refine ⟨fr.trans fr3, ⟨⟨?_, ?_, sd, hi, ag, i3 gl ag, ?_⟩, .inr (ep3 gl ag), .inl (t3 gl ag), ?_, by rw [it3]; omega⟩, ?_, ?_, ?_⟩
    · rw [fr3.Q, fr.Q]; exact q
    · rw [nb3, Dn]; exact pos
    · intro s hs
      rw [if_pos ((ac s).mp hs), ← hpre, ← f2.h s ((ac s).mp hs), ← hst3]
    · rintro E _ s c ⟨h1, h2⟩
      rw [i3 s h1, it3] at h2
      exact absurd h2 (by decide)
    · refine ⟨?_, ?_, ?_, ?_, ?_, .inl ?_, ?_⟩
      · intro u t c hu lt; rw [v3 u hu] at lt; omega
      · intro s hs hf; rw [t3 s hs] at hf; cases hf
      · intro s hs; rw [l3 s hs]; exact q.nil _
      · intro s p hs hf; rw [t3 s hs] at hf; cases hf
      · intro s hs e he; rw [l3 s hs] at he; cases he
      · intro u hu lt; rw [v3 u hu] at lt; omega
      · intro u hu lt; rw [v3 u hu] at lt; omega
    · rw [← hst3]; exact ep2
    · rw [← hst3]; exact sa2

/-! ### Search -/

structure SearchPost (st : LazyARA) (s0 gl : Nat) (bs : List Nat) (r : LazyARA × Result) : Prop where
  frs : FrS { st with num := st.num + 1 } r.1
  bp : BP r.1.heap
  anyPass : bs ≠ [] → r.2.passes ≠ []
  len : r.2.passes.length ≤ bs.length
  one : st.first = true → ∀ p ∈ r.2.passes, p.out = false
  passes : ∀ p ∈ r.2.passes, p.tr.Nodup ∧ gl ∉ p.tr
  found : r.2.found = true → ∃ l x, r.2.path = (if st.fwd then l.reverse else l) ∧
    PathPost st s0 gl (∃ p ∈ r.2.passes, p.out = true) l r.2.cost x ∧
    (r.2.passes ≠ [] → (∀ p ∈ r.2.passes, p.out = false) → Low st → st.hOf gl = 0 → ARA.infl st.D st.initEps (st.hPre s0) < INF →
      ∀ E, EpsAt st st.initEps E → ∀ c, RWalk st.E s0 gl c → E.M * x ≤ E.N * c) ∧
    (AllTrue st → st.hOf gl = 0 → ARA.infl st.D (max st.initEps st.finalEps) (st.hPre s0) < INF → ∀ e, r.2.finalEps = some e →
      ∀ E, EpsAt st e E → ∀ c, RWalk st.E s0 gl c → E.M * x ≤ E.N * c)
  lost : r.2.found = false → r.2.path = [] ∧
    (r.2.passes ≠ [] → (∀ p ∈ r.2.passes, p.out = false) → Low st → st.hOf gl = 0 → ARA.infl st.D st.initEps (st.hPre s0) < INF →
      ∀ E, EpsAt st st.initEps E → ∀ c, RWalk st.E s0 gl c → E.M * INF ≤ E.N * c)

theorem search_spec {st : LazyARA} {s0 gl : Nat} {bs : List Nat} (q : QueueOk st.Q wf) (pos : ∀ p s c f, (s, c, f) ∈ st.nbr p → 1 ≤ c) (hs : Hist st)
    (nm : st.num + 1 < SHORT - 1) (nn : bs.length < SHORT - 1) (hg : st.hPre gl = 0) :
    OkOrT st.first (st.search bs s0 gl) (SearchPost st s0 gl bs) := by
  have is := init_spec (s0 := s0) (gl := gl) q pos hs nm nn
  unfold search
  cases e : st.initSearch s0 gl with
  | error x => rw [e] at is; exact .inl is
  | ok st1 =>
    rw [e] at is
    obtain ⟨fr1, en, op, epE, sat⟩ := (is : InitPost wf st s0 gl bs.length st1)
    simp only
    have sl := searchLoop_spec hg bs en
    have ff : st1.first = st.first := fr1.first
    rw [ff] at sl
    cases e2 : searchLoop gl bs st1 with
    | error x => rw [e2] at sl; exact sl
    | ok r =>
      rw [e2] at sl
      obtain ⟨st2, ok, ps⟩ := r
      have lp : SLPost wf st1 s0 gl st.hPre bs (st2, ok, ps) := sl
      simp only
      have nb : st1.nbr = st.nbr := fr1.nbr
      have tc : st1.trueCost = st.trueCost := fr1.tc
      have EE : st1.E = st.E := fr1.E
      have hO : st1.hOf = st.hOf := fr1.hOf
      have Dd : st1.D = st.D := fr1.D
      have low1 : Low st → Low st1 := by intro l; unfold Low; rw [nb, tc]; exact l
      have at1 : AllTrue st → AllTrue st1 := by intro l; unfold AllTrue; rw [nb]; exact l
      have atLow : AllTrue st → Low st1 := by
        intro l p s lc hm
        rw [nb] at hm
        exact absurd (l _ _ _ _ hm) (by simp)
      have epsA : ∀ e E, EpsAt st e E → EpsAt st1 e E := by
        intro e E h; unfold EpsAt at h ⊢; rw [EE, Dd, hO]; exact h
      have some' : bs ≠ [] → ps ≠ [] := lp.some (by unfold notDone; rw [sat])
      have bd1 : ps ≠ [] → (∀ p ∈ ps, p.out = false) → Low st → st.hOf gl = 0 → ARA.infl st.D st.initEps (st.hPre s0) < INF →
          ∀ E, EpsAt st st.initEps E → ∀ c, RWalk st.E s0 gl c → E.M * st2.v gl ≤ E.N * c := by
        intro h1 h2 low h0 hi E he c w
        have he' := epsA _ _ he
        exact lp.bound1 h1 h2 (low1 low) op (by rw [hO]; exact h0) (by rw [Dd, epE]; exact hi) E ⟨he'.1, by rw [epE]; exact he'.2⟩ c (by rw [EE]; exact w)
      have bdE : AllTrue st → st.hOf gl = 0 → ARA.infl st.D (max st.initEps st.finalEps) (st.hPre s0) < INF → ∀ e, st2.epsSat = some e →
          ∀ E, EpsAt st e E → ∀ c, RWalk st.E s0 gl c → E.M * st2.v gl ≤ E.N * c := by
        intro at' h0 hi e he E hE c w
        have fe : st1.finalEps = st.finalEps := fr1.finalEps
        have := lp.boundE (at1 at') (atLow at') op (by rw [hO]; exact h0) ⟨max st.initEps st.finalEps, by rw [epE]; omega, by rw [fe]; omega, by rw [Dd]; exact hi⟩
          (by intro e he; rw [sat] at he; cases he)
        refine this e he E ?_ c ?_
        · have h := epsA _ _ hE
          unfold EpsAt at h ⊢
          rw [lp.frs.E, lp.frs.D, lp.frs.hOf]; exact h
        · rw [lp.frs.E, EE]; exact w
      have fr12 : FrS { st with num := st.num + 1 } st2 := fr1.trans lp.frs
      split
      next h =>
        refine ⟨fr12, lp.bp, some', lp.len, fun hf => lp.one (by rw [ff]; exact hf), lp.passes, by simp, ?_⟩
        intro _
        refine ⟨rfl, ?_⟩
        intro h1 h2 low h0 hi E he c w
        have := bd1 h1 h2 low h0 hi E he c w
        have vI : st2.v gl = INF := by
          rcases h with h | h
          · exact (lp.fail h).2
          · rw [lp.vg h1 h2]; exact h
        rwa [vI] at this
      next h =>
        have hok : ok = true ∧ st2.g gl ≠ INF := by
          constructor
          · cases ok with
            | true => rfl
            | false => exact absurd (.inl rfl) h
          · exact fun c => h (.inr c)
        have posE : ∀ p s c, st2.E p s c → 1 ≤ c := by
          intro p s c h
          rcases h with h | ⟨lc, _, _, h⟩
          · rw [fr12.nbr] at h; exact pos _ _ _ _ h
          · exact h
        obtain ⟨st3, l, c, x, e3, f3, hp3, se3, xle, pp⟩ := getSearchPath_spec (fuel := st2.g gl + st2.v gl + 1) posE lp.tail hok.2 (by omega)
        rw [e3]
        refine ⟨fr12.trans f3, by show BP st3.heap; rw [hp3]; exact lp.bp, some', lp.len, fun hf => lp.one (by rw [ff]; exact hf), lp.passes, ?_, by simp⟩
        intro _
        refine ⟨l, x, ?_, pp.congr fr12.nbr fr12.tc, ?_, ?_⟩
        · show (if st2.fwd then _ else _) = _
          rw [fr12.fwd]
        · intro h1 h2 low h0 hi E he c w
          exact Nat.le_trans (Nat.mul_le_mul_left _ xle) (bd1 h1 h2 low h0 hi E he c w)
        · intro at' h0 hi e he E hE c w
          have he : st3.epsSat = Option.some e := he
          rw [se3] at he
          exact Nat.le_trans (Nat.mul_le_mul_left _ xle) (bdE at' h0 hi e he E hE c w)

end Sbpl.LazyARA
