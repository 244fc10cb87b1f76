import Verif.Proofs.AD
/-! AD*: one expansion, the ComputePath loop, return codes. -/

namespace Sbpl.AD
open GraphSpec ARA Heap

/-- Search invariant while ComputePath runs. -/
structure RInv (st : ARA) (g : Gr) (gl : Nat) (F : Prop) : Prop where
  l : LInv st g gl
  v : Idle g F (vals st)
  jn : Jn g (vals st) st.closed
  cv : ∀ s, st.closed s → st.V s < INF
  j : F → J g st.D st.eps (vals st) st.closed
  sat : ∀ e, st.epsSat = some e → st.G gl < INF ∧ Clean g gl (vals st) ∧ (F → Sub g st.D e gl (vals st))
  nb : st.bNew = false
  nr : st.bReeval = false

/-- static conditions -/
structure Ctx (st : ARA) (g : Gr) (gl : Nat) : Prop where
  ok : GOk g
  act : ∀ s, s ≠ gl → g.A s
  qg : g.Q gl
  hg : g.H gl = 0
  dp : 0 < st.D
  de : st.D ≤ st.eps

theorem Ctx.fr {a b : ARA} {g : Gr} {gl : Nat} (c : Ctx a g gl) (f : Fr a b) : Ctx b g gl :=
  ⟨c.ok, c.act, c.qg, c.hg, by rw [f.D]; exact c.dp, by rw [f.D, f.eps]; exact c.de⟩

theorem infl_ge {D e h : Nat} (dp : 0 < D) (de : D ≤ e) : h ≤ infl D e h := by
  unfold infl
  rw [Nat.le_div_iff_mul_le dp, Nat.mul_comm]
  exact Nat.mul_le_mul_right h de

theorem accV {st : ARA} {s : Nat} (h : st.V s ≠ st.G s) : st.acc s := by
  by_contra a; rw [V_stale a, G_stale a] at h; exact h rfl

section
variable {st : ARA} {g : Gr} {gl : Nat}

theorem LInv.hh (l : LInv st g gl) {s : Nat} (a : st.acc s) : st.h s = g.H s := by
  rw [l.hok s a, l.gr.heur]

theorem LInv.keyOver (l : LInv st g gl) {s : Nat} (a : st.acc s) (h : st.G s ≤ st.V s) :
    keyFor st s = ⟨((st.G s + infl st.D st.eps (g.H s) : Nat) : Int), 1⟩ := by
  unfold keyFor
  rw [G_acc a, V_acc a] at h
  rw [if_pos h, G_acc a, l.hh a]

theorem LInv.keyUnder (l : LInv st g gl) {s : Nat} (a : st.acc s) (h : st.V s < st.G s) :
    keyFor st s = ⟨((st.V s + g.H s : Nat) : Int), 0⟩ := by
  unfold keyFor
  rw [G_acc a, V_acc a] at h
  rw [if_neg (by omega), V_acc a, l.hh a]

theorem LInv.inOpen (l : LInv st g gl) (nb : st.bNew = false) (nr : st.bReeval = false) {s : Nat}
    (ne : st.V s ≠ st.G s) (nc : ¬ st.closed s) : keyOf st.heap s = some (keyFor st s) := by
  have a := accV ne
  rw [V_acc a, G_acc a] at ne
  rcases (l.m.mem s (by simp) a).mpr ne with h | h
  · cases e : keyOf st.heap s with
    | none => exact absurd e h
    | some k => rw [l.m.keys nr s k (by simp) e]
  · exact absurd ⟨a, l.m.inc nb s (by simp) h⟩ nc

theorem loopCond_iff : loopCond st gl = true ↔
    st.heap.size ≠ 0 ∧ (st.heap.kat 1).k0 < 1000000000 ∧ (st.heap.kat 1 < keyFor st gl ∨ st.v gl < st.g gl) := by
  unfold loopCond wants minKey Heap.getMinKey
  by_cases z : st.heap.size = 0
  · simp [Heap.isEmpty, z]
  · have z' : (st.heap.size == 0) = false := by simpa using z
    simp only [Heap.isEmpty, z', z, if_false, CKey.lt_def]
    simp only [CKey.gtB, Bool.and_eq_true, Bool.or_eq_true, decide_eq_true_eq, kat, Bool.not_false, true_and, ne_eq,
      not_false_eq_true]
    constructor <;> intro h <;> omega

end

theorem okOr_pair {r : Except PErr ARA} {P : ARA → Prop} {Q : Nat × ARA → Prop} {s : Nat} (h : OkOr r P)
    (i : ∀ a, P a → Q (s, a)) : OkOr (match r with | .error e => .error e | .ok st2 => .ok (s, st2)) Q := by
  cases r with
  | error e => exact h
  | ok a => exact i a h

/-- the state taken from OPEN is removed from it -/
theorem pop_minv {st : ARA} (i : MInv st none) {s : Nat} {h : Heap CKey} (bp : BP h) (ord : Ordered h)
    (hk : keyOf h = upd (keyOf st.heap) s none) : MInv { st with heap := h } (some s) := by
  have ko : ∀ t, keyOf h t ≠ none → keyOf st.heap t ≠ none := by
    intro t x
    rw [hk] at x
    by_cases q : t = s
    · subst q; simp at x
    · rwa [upd_other _ _ q] at x
  have ke : ∀ t, some t ≠ some s → keyOf h t = keyOf st.heap t := by
    intro t x
    rw [hk, upd_other _ _ (by simpa using x)]
  refine ⟨⟨bp, ord, i.data.lrel, i.data.callLe, ?_, i.data.staleL⟩, ?_, ?_, i.it, ?_, i.iterLe, ?_, ?_⟩
  · intro t a
    by_contra x
    exact ko t x (i.data.staleH t a)
  · intro t q a
    rw [ke t q]
    exact i.mem t (by simp) a
  · intro t x
    exact i.disj t ⟨ko t x.1, x.2⟩
  · intro t x; exact i.opn t (ko t x)
  · intro nb t _ x; exact i.inc nb t (by simp) x
  · intro nr t k q x
    simp only [ke t q] at x
    exact i.keys nr t k (by simp) x

theorem over_minv {st : ARA} {s : Nat} (i : MInv st (some s)) (as : st.acc s) (n1 : keyOf st.heap s = none)
    (n2 : ¬ st.Inc s) : MInv { st with v := upd st.v s (st.g s), iterC := upd st.iterC s st.iter } none := by
  refine ⟨⟨i.data.bp, i.data.ord, i.data.lrel, i.data.callLe, i.data.staleH, i.data.staleL⟩, ?_, i.disj, i.it, ?_, ?_,
    ?_, ?_⟩
  · intro t _ a
    by_cases q : t = s
    · subst q
      have n2' : ¬ ({ st with v := upd st.v t (st.g t), iterC := upd st.iterC t st.iter } : ARA).Inc t := n2
      simp [n1, n2']
    · simp only [upd_other _ _ q]
      exact i.mem t (by simpa using q) a
  · intro t x
    have q : t ≠ s := by rintro rfl; exact x n1
    simp only [upd_other _ _ q]
    exact i.opn t x
  · intro t a
    by_cases q : t = s
    · subst q; simp
    · simp only [upd_other _ _ q]; exact i.iterLe t a
  · intro nb t _ x
    have q : t ≠ s := by rintro rfl; exact n2 x
    simp only [upd_other _ _ q]
    exact i.inc nb t (by simpa using q) x
  · intro nr t k _ x
    have q : t ≠ s := by rintro rfl; rw [n1] at x; cases x
    rw [i.keys nr t k (by simpa using q) x]
    unfold keyFor
    simp only [upd_other _ _ q]

theorem under_minv {st : ARA} {s : Nat} (i : MInv st (some s)) (n : Nat) :
    MInv { st with v := upd st.v s n } (some s) := by
  refine ⟨⟨i.data.bp, i.data.ord, i.data.lrel, i.data.callLe, i.data.staleH, i.data.staleL⟩, ?_, i.disj, i.it, i.opn,
    i.iterLe, i.inc, ?_⟩
  · intro t q a
    have q' : t ≠ s := by simpa using q
    simp only [upd_other _ _ q']
    exact i.mem t q a
  · intro nr t k q x
    have q' : t ≠ s := by simpa using q
    rw [i.keys nr t k q x]
    unfold keyFor
    simp only [upd_other _ _ q']

theorem upd_V {st : ARA} {s : Nat} (as : st.acc s) (n : Nat) (it : Nat → Nat) (h : Heap CKey) :
    vals { st with heap := h, v := upd st.v s n, iterC := it } = { vals st with V := upd st.V s n } := by
  have : ({ st with heap := h, v := upd st.v s n, iterC := it } : ARA).V = upd st.V s n := by
    funext u
    by_cases q : u = s
    · subst q
      rw [upd_same]
      have a : ({ st with heap := h, v := upd st.v u n, iterC := it } : ARA).acc u := as
      rw [V_acc a]; simp
    · rw [upd_other _ _ q]
      unfold ARA.V
      simp only [upd_other _ _ q]
      rfl
  unfold vals
  rw [this]
  rfl

/-- result of one expansion of `s` -/
structure ExpPost (st : ARA) (g : Gr) (gl : Nat) (F : Prop) (s : Nat) (st' : ARA) : Prop where
  r : RInv st' g gl F
  f : Fr st st'
  as : st.acc s
  notCl : ¬ st.closed s
  kind : (st.G s < st.V s ∧ st'.V = upd st.V s (st.G s) ∧ (∀ t, st'.closed t ↔ t = s ∨ st.closed t)) ∨
    (st.V s < st.G s ∧ st'.V = upd st.V s INF ∧ (∀ t, st'.closed t ↔ st.closed t))

theorem expand_spec {st : ARA} {g : Gr} {gl : Nat} {F : Prop} (r : RInv st g gl F) (c : Ctx st g gl) (ag : st.acc gl)
    (hc : loopCond st gl = true) : OkOr (expand st) (fun p => ExpPost st g gl F p.1 p.2) := by
  obtain ⟨hz, hm, hw⟩ := loopCond_iff.mp hc
  unfold expand
  cases e : st.heap.deleteMin with
  | error x => exfalso; unfold Heap.deleteMin at e; rw [if_neg hz] at e; cases e
  | ok p =>
  obtain ⟨s, h'⟩ := p
  simp only
  have m := r.l.m
  obtain ⟨b1, b2, _, b4, _, k, b5, b6, b7⟩ := deleteMin_spec m.data.bp m.data.ord e
  have hk : k = keyFor st s := m.keys r.nr s k (by simp) b5
  have so : keyOf st.heap s ≠ none := by rw [b5]; simp
  have as := m.data.openAcc so
  have ne : st.v s ≠ st.g s := (m.mem s (by simp) as).mp (.inl so)
  have nc : ¬ st.closed s := fun h => m.opn s so h.2
  have nI : ¬ st.Inc s := fun h => m.disj s ⟨so, h⟩
  have gi := r.v.gInf
  have vi := r.v.vInf
  have m0 := pop_minv m b1 b4 b2
  have n1 : keyOf h' s = none := by rw [b2, upd_same]
  -- smaller than every OPEN key
  have mn : ∀ o, st.V o ≠ st.G o → ¬ st.closed o → keyFor st s ≤ keyFor st o := by
    intro o h1 h2
    rw [← hk]
    exact b7 o _ (r.l.inOpen r.nb r.nr h1 h2)
  unfold expandState
  rw [if_neg (show ¬ ({ st with heap := h' } : ARA).v s = ({ st with heap := h' } : ARA).g s from ne)]
  by_cases ov : st.v s > st.g s
  · rw [if_pos (show ({ st with heap := h' } : ARA).v s > ({ st with heap := h' } : ARA).g s from ov)]
    dsimp only
    have lt : st.G s < st.V s := by rw [G_acc as, V_acc as]; exact ov
    have sg : s ≠ gl := by
      rintro rfl
      rcases hw with hw | hw
      · rw [← b6, hk] at hw; exact lt_irrefl _ hw
      · omega
    have hA := c.act s sg
    generalize hst : ({ st with heap := h', v := upd st.v s (st.g s), iterC := upd st.iterC s st.iter } : ARA) = st1
    have m1 : MInv st1 none := by rw [← hst]; exact over_minv m0 as n1 nI
    have f1 : Fr st st1 := by
      rw [← hst]
      exact ⟨rfl, rfl, rfl, rfl, rfl, rfl, rfl, rfl, rfl, rfl, rfl, rfl, rfl, rfl, rfl, rfl, fun _ h => h⟩
    have w1 : vals st1 = { vals st with V := upd st.V s (st.G s) } := by
      rw [← hst, upd_V as, G_acc as]
    have cl1 : ∀ t, st1.closed t ↔ t = s ∨ st.closed t := by
      intro t
      rw [← hst]
      unfold closed
      by_cases q : t = s
      · subst q
        have : st.acc t := as
        simp only [upd_same, and_true, true_or, iff_true]
        exact as
      · simp only [upd_other _ _ q, q, false_or]
        exact Iff.rfl
    have l1 : LInv st1 g gl := ⟨m1, r.l.gr.fr f1, by rw [← hst]; exact r.l.hok⟩
    have hn : st1.nbr s = g.B s := l1.gr.nbr s hA
    rw [hn]
    have v1 : VInv g F (vals st1) s (g.B s) 0 0 [] := by rw [w1]; exact over_start r.v hA lt
    refine okOr_pair (overAll_spec (g.B s) l1 v1 (fun _ h => h) (f1.accM s as)) ?_
    intro st2 o
    have hV : st2.V = upd st.V s (st.G s) := by
      rw [o.vEq]; show (vals st1).V = _; rw [w1]
    have hG : ∀ t, st2.G t ≤ st.G t := by
      intro t
      have : st1.G t = st.G t := by show (vals st1).G t = _; rw [w1]; rfl
      rw [← this]; exact o.gLe t
    have cl2 : ∀ t, st2.closed t ↔ t = s ∨ st.closed t := fun t => (o.cl t).trans (cl1 t)
    have f2 := f1.trans o.f
    have vle : ∀ u, st2.V u ≤ st.V u := by
      intro u; rw [hV]
      by_cases q : u = s
      · subst q; rw [upd_same]; omega
      · rw [upd_other _ _ q]
    have mnO : ∀ o, st.G o < st.V o → ¬ st.closed o →
        st.G s + infl st.D st.eps (g.H s) ≤ st.G o + infl st.D st.eps (g.H o) := by
      intro o h1 h2
      have := mn o (by omega) h2
      rw [r.l.keyOver as (by omega), r.l.keyOver (accV (by omega)) (by omega), CKey.le_def] at this
      simp only at this
      omega
    have mnU : ∀ x, st.V x < st.G x → ¬ st.closed x → st.G s + g.H s < st.V x + g.H x := by
      intro x h1 h2
      have := mn x (by omega) h2
      rw [r.l.keyOver as (by omega), r.l.keyUnder (accV (by omega)) h1, CKey.le_def] at this
      simp only at this
      have := infl_ge (h := g.H s) c.dp c.de
      omega
    refine ⟨⟨o.l, o.v.idleO, ?_, ?_, ?_, ?_, by rw [f2.bNew]; exact r.nb, by rw [f2.bReeval]; exact r.nr⟩, f2, as, nc,
      .inl ⟨lt, hV, cl2⟩⟩
    · refine o.jn _ ?_
      rw [w1]
      exact r.jn.over cl2 nc mnU
    · intro t h
      rcases (cl2 t).mp h with rfl | h
      · rw [hV, upd_same]; have := vi t; change st.V t ≤ INF at this; omega
      · exact Nat.lt_of_le_of_lt (vle t) (r.cv t h)
    · intro hF
      have i' : Idle g True (vals st) := by
        have := r.v
        rwa [eq_true hF] at this
      have := (r.j hF).over i' cl2 nc mnO
      rw [f2.D, f2.eps]
      intro E he t k hk wk
      have h2 := this E he t k hk wk
      have h3 : (vals st2).V t = upd st.V s (st.G s) t := congrFun hV t
      rw [h3]; exact h2
    · intro e' he
      rw [f2.epsSat] at he
      rw [f2.D]
      obtain ⟨q1, q2, q3⟩ := r.sat e' he
      refine ⟨Nat.lt_of_le_of_lt (hG gl) q1, q2.mono ?_ (hG gl), fun hF => (q3 hF).mono c.ok vi ?_ (hG gl)⟩
      · intro x hx
        change st2.V x < st2.G x at hx
        change st2.V x = st.V x ∧ st.V x < st.G x
        have := hG x
        have q : x ≠ s := by
          rintro rfl
          rw [hV, upd_same] at hx; omega
        have : st2.V x = st.V x := by rw [hV, upd_other _ _ q]
        omega
      · intro u _ hu
        change st2.V u = INF at hu
        change st.V u = INF
        have l1 := vle u
        have l2 := vi u
        change st.V u ≤ INF at l2
        omega
  · rw [if_neg (show ¬ ({ st with heap := h' } : ARA).v s > ({ st with heap := h' } : ARA).g s from ov)]
    have lt : st.V s < st.G s := by rw [G_acc as, V_acc as]; omega
    have gis := gi s
    change st.G s ≤ INF at gis
    have hA := r.v.actV s (by change st.V s < INF; omega)
    have s0 : s ≠ g.s0 := by
      rintro rfl
      have := r.v.startG
      change st.G g.s0 = 0 at this
      omega
    have m1 := under_minv m0 INFINITECOST
    have sm := setMembership_minv m1 as
    have w1 : vals { st with heap := h', v := upd st.v s INFINITECOST } = { vals st with V := upd st.V s INF } :=
      upd_V as _ st.iterC h'
    cases e1 : setMembership { st with heap := h', v := upd st.v s INFINITECOST } s with
    | error x => rw [e1] at sm; exact sm
    | ok st1 =>
    rw [e1] at sm
    obtain ⟨m2, hl⟩ := sm
    simp only
    have f1 : Fr st st1 := by
      have : Fr st { st with heap := h', v := upd st.v s INFINITECOST } :=
        ⟨rfl, rfl, rfl, rfl, rfl, rfl, rfl, rfl, rfl, rfl, rfl, rfl, rfl, rfl, rfl, rfl, fun _ h => h⟩
      exact this.trans hl.fr
    have l1 : LInv st1 g gl := ⟨m2, r.l.gr.fr f1, hl.hok r.l.hok⟩
    have hn : st1.nbr s = g.B s := l1.gr.nbr s hA
    have w2 : vals st1 = { vals st with V := upd st.V s INF } := by rw [hl.vals, w1]
    have v1 : VInv g F (vals st1) 0 [] s (st.V s) (g.B s) := by rw [w2]; exact under_start r.v
    have hV1 : st1.V = upd st.V s INF := by show (vals st1).V = _; rw [w2]
    have hG1 : st1.G = st.G := by show (vals st1).G = _; rw [w2]; rfl
    have cl1 : ∀ t, st1.closed t ↔ st.closed t := fun t => (hl.closed t).trans Iff.rfl
    have jn1 : Jn g (vals st1) st.closed := by rw [w2]; exact r.jn.under nc gi
    rw [hn]
    -- closed states come before `s`
    have main : OkOr (underAll s (g.B s) st1) (fun st2 => UnderPost st1 st2 g F gl s (st.V s) [] ∧
        Jn g (vals st2) st.closed ∧ (¬ g.Q s → st2.G = st.G)) := by
      by_cases q : g.Q s
      · have f0 : ∀ k, st.closed k → st1.V k + g.H k < st.V s + g.H s := by
          intro k' hk'
          have : k' ≠ s := by rintro rfl; exact nc hk'
          rw [hV1, upd_other _ _ this]
          exact r.jn s q lt k' hk'
        refine (underAll_spec c.ok (g.B s) l1 v1 (by rw [hV1, upd_same])).imp ?_
        intro st2 o
        exact ⟨o, o.jn _ jn1 f0, fun h => absurd q h⟩
      · have hb := c.ok.iso s s0 q
        rw [hb] at v1 ⊢
        exact ⟨⟨l1, Fr.refl _, v1, fun _ => Iff.rfl, rfl, fun _ h _ => h⟩, jn1, fun _ => hG1⟩
    refine okOr_pair main ?_
    rintro st2 ⟨o, jn2, hQ⟩
    have hV : st2.V = upd st.V s INF := by rw [o.vEq, hV1]
    have cl2 : ∀ t, st2.closed t ↔ st.closed t := fun t => (o.cl t).trans (cl1 t)
    have f2 := f1.trans o.f
    refine ⟨⟨o.l, o.v.idleO, ?_, ?_, ?_, ?_, by rw [f2.bNew]; exact r.nb, by rw [f2.bReeval]; exact r.nr⟩, f2, as, nc,
      .inr ⟨lt, hV, cl2⟩⟩
    · intro x q h k hk
      exact jn2 x q h k ((cl2 k).mp hk)
    · intro t h
      rw [cl2] at h
      have : t ≠ s := by rintro rfl; exact nc h
      rw [hV, upd_other _ _ this]; exact r.cv t h
    · intro hF
      rw [f2.D, f2.eps]
      intro E he t k hk wk
      have h2 := (r.j hF).under nc E he t k ((cl2 t).mp hk) wk
      have h3 : (vals st2).V t = upd st.V s INF t := congrFun hV t
      rw [h3]; exact h2
    · intro e' he
      rw [f2.epsSat] at he
      rw [f2.D]
      obtain ⟨q1, q2, q3⟩ := r.sat e' he
      have nq : ¬ g.Q s := by
        intro q
        have h1 := q2 s q lt
        change st.G gl < st.V s + g.H s at h1
        have gv : st.G gl ≤ st.V gl := by
          by_contra x
          have := q2 gl c.qg (by change st.V gl < st.G gl; omega)
          change st.G gl < st.V gl + g.H gl at this
          rw [c.hg] at this
          omega
        rcases hw with hw | hw
        · rw [← b6, hk, r.l.keyUnder as lt, r.l.keyOver ag gv, c.hg, infl_zero, CKey.lt_def] at hw
          simp only at hw
          omega
        · rw [G_acc ag, V_acc ag] at gv; omega
      have hG := hQ nq
      have hgl : st2.G gl ≤ st.G gl := by rw [hG]
      refine ⟨by rw [hG]; exact q1, q2.mono ?_ hgl, fun hF => (q3 hF).mono c.ok vi ?_ hgl⟩
      · intro x hx
        change st2.V x < st2.G x at hx
        change st2.V x = st.V x ∧ st.V x < st.G x
        rw [hG] at hx
        have q : x ≠ s := by
          rintro rfl
          rw [hV, upd_same] at hx; omega
        rw [hV, upd_other _ _ q] at hx ⊢
        exact ⟨rfl, hx⟩
      · intro u hu hV'
        change st2.V u = INF at hV'
        change st.V u = INF
        have q : u ≠ s := by
          rintro rfl
          rcases hu with hu | hu
          · exact nq hu
          · exact s0 hu
        rw [hV, upd_other _ _ q] at hV'
        exact hV'

structure LoopPost (st : ARA) (g : Gr) (gl : Nat) (F : Prop) (b : Nat) (tr : List Nat) (st' : ARA) : Prop where
  r : RInv st' g gl F
  f : Fr st st'
  two : ∀ s, tr.count s ≤ 2
  one : ∀ s, st.V s = INF → tr.count s ≤ 1
  zero : ∀ s, st.closed s → s ∉ tr
  accT : ∀ s ∈ tr, st'.acc s
  fin : tr.length < b → loopCond st' gl = false
  len : tr.length ≤ b

theorem computeLoop_spec {g : Gr} {gl : Nat} {F : Prop} (b : Nat) : ∀ {st : ARA}, RInv st g gl F → Ctx st g gl →
    st.acc gl → OkOr (computeLoop gl b st) (fun p => LoopPost st g gl F b p.1 p.2) := by
  induction b with
  | zero =>
    intro st r _ _
    exact ⟨r, Fr.refl st, by simp, by simp, by simp, by simp, by simp, by simp⟩
  | succ b ih =>
    intro st r c ag
    unfold computeLoop
    split
    next hc =>
      have es := expand_spec r c ag hc
      cases e : expand st with
      | error x => rw [e] at es; exact es
      | ok p =>
        rw [e] at es
        obtain ⟨s, st1⟩ := p
        have es : ExpPost st g gl F s st1 := es
        simp only
        have ih' := ih es.r (c.fr es.f) (es.f.accM gl ag)
        cases e2 : computeLoop gl b st1 with
        | error x => rw [e2] at ih'; exact ih'
        | ok p =>
          rw [e2] at ih'
          obtain ⟨tr, st2⟩ := p
          have ih' : LoopPost st1 g gl F b tr st2 := ih'
          show LoopPost st g gl F (b + 1) (s :: tr) st2
          refine ⟨ih'.r, es.f.trans ih'.f, ?_, ?_, ?_, ?_, ?_, ?_⟩
          · intro t
            rw [List.count_cons]
            by_cases q : s = t
            · subst q
              simp only [beq_self_eq_true, if_true]
              rcases es.kind with ⟨_, _, h⟩ | ⟨_, h, _⟩
              · rw [List.count_eq_zero.mpr (ih'.zero s ((h s).mpr (.inl rfl)))]; omega
              · have := ih'.one s (by rw [h, upd_same]); omega
            · simp only [beq_iff_eq, q, if_false]; exact ih'.two t
          · intro t ht
            rw [List.count_cons]
            by_cases q : s = t
            · subst q
              simp only [beq_self_eq_true, if_true]
              rcases es.kind with ⟨_, _, h⟩ | ⟨h, _, _⟩
              · rw [List.count_eq_zero.mpr (ih'.zero s ((h s).mpr (.inl rfl)))]
              · have := r.v.gInf s
                change st.G s ≤ INF at this
                omega
            · simp only [beq_iff_eq, q, if_false]
              refine ih'.one t ?_
              rcases es.kind with ⟨_, h, _⟩ | ⟨_, h, _⟩ <;> rw [h, upd_other _ _ (Ne.symm q)] <;> exact ht
          · intro t ht
            rw [List.mem_cons]
            rintro (q | q)
            · subst q; exact es.notCl ht
            · refine ih'.zero t ?_ q
              rcases es.kind with ⟨_, _, h⟩ | ⟨_, _, h⟩
              · exact (h t).mpr (.inr ht)
              · exact (h t).mpr ht
          · intro t ht
            rw [List.mem_cons] at ht
            rcases ht with rfl | ht
            · exact ih'.f.accM t (es.f.accM t es.as)
            · exact ih'.accT t ht
          · intro h; exact ih'.fin (by simp only [List.length_cons] at h; omega)
          · have := ih'.len; simp only [List.length_cons]; omega
    next hc =>
      exact ⟨r, Fr.refl st, by simp, by simp, by simp, by simp, fun _ => by simpa using hc, by simp⟩

theorem touch_rinv {st : ARA} {g : Gr} {gl : Nat} {F : Prop} (r : RInv st g gl F) (s : Nat) :
    RInv (st.touch s) g gl F := by
  have d := r.l.m.data
  have f := touch_fr d s
  have hV : (st.touch s).V = st.V := by funext u; exact touch_V d s u
  have hG : (st.touch s).G = st.G := by funext u; exact touch_G d s u
  have hC : ∀ t, (st.touch s).closed t ↔ st.closed t := touch_closed d r.l.m.it s
  have w := touch_vals d s
  refine ⟨touch_linv r.l s, by rw [w]; exact r.v.grow f.accM, ?_, ?_, ?_, ?_, by rw [f.bNew]; exact r.nb,
    by rw [f.bReeval]; exact r.nr⟩
  · intro x q h k hk
    rw [w] at h ⊢
    exact r.jn x q h k ((hC k).mp hk)
  · intro t h; rw [hV]; exact r.cv t ((hC t).mp h)
  · intro hF
    rw [f.D, f.eps]
    intro E he t k hk wk
    rw [w]
    exact r.j hF E he t k ((hC t).mp hk) wk
  · intro e he
    rw [f.epsSat] at he
    rw [f.D, hG, w]
    exact r.sat e he

/-- the search stopped by itself: the goal's value is at most the smallest key -/
theorem exit_min {st : ARA} {g : Gr} {gl : Nat} {F : Prop} (r : RInv st g gl F) (c : Ctx st g gl) (ag : st.acc gl)
    (h : loopCond st gl = false ∨ retCode st gl = 1) :
    ∀ o, st.G o < st.V o → ¬ st.closed o → st.G gl ≤ st.G o + infl st.D st.eps (g.H o) := by
  intro o lt nc
  have ko := r.l.inOpen r.nb r.nr (by omega) nc
  have ao := accV (st := st) (s := o) (by omega)
  have gi := r.v.gInf gl
  change st.G gl ≤ INF at gi
  have ml := min_le r.l.m.data.bp r.l.m.data.ord ko
  have z : st.heap.size ≠ 0 := by
    obtain ⟨sl, a1, a2, _, _⟩ := slot_of_keyOf r.l.m.data.bp ko
    omega
  rw [r.l.keyOver ao (by omega), CKey.le_def] at ml
  simp only at ml
  have big : 1000000000 ≤ (st.heap.kat 1).k0 → st.G gl ≤ st.G o + infl st.D st.eps (g.H o) := by
    intro hb
    unfold INF INFINITECOST at gi
    omega
  have nw : ¬ (st.heap.kat 1 < keyFor st gl ∨ st.v gl < st.g gl) → st.G gl ≤ st.G o + infl st.D st.eps (g.H o) := by
    intro hb
    rw [not_or, not_lt, not_lt] at hb
    have h1 := hb.1
    have gv : st.G gl ≤ st.V gl := by rw [G_acc ag, V_acc ag]; exact hb.2
    rw [r.l.keyOver ag gv, c.hg, infl_zero, CKey.le_def] at h1
    simp only at h1
    omega
  rcases h with h | h
  · by_cases hb : 1000000000 ≤ (st.heap.kat 1).k0
    · exact big hb
    · refine nw (fun hw => ?_)
      have := loopCond_iff.mpr ⟨z, by omega, hw⟩
      rw [h] at this; cases this
  · by_cases hb : 1000000000 ≤ (st.heap.kat 1).k0
    · exact big hb
    · refine nw (fun hw => ?_)
      have hl := loopCond_iff.mpr ⟨z, by omega, hw⟩
      unfold loopCond at hl
      rw [Bool.and_eq_true, Bool.and_eq_true] at hl
      have e1 : st.heap.isEmpty = false := by simp [Heap.isEmpty, z]
      unfold retCode at h
      rw [if_neg (by simp [e1]), if_pos ⟨e1, hl.2⟩] at h
      cases h

/-- a computed bound: no underconsistent state matters any more -/
theorem ret_clean {st : ARA} {g : Gr} {gl : Nat} {F : Prop} (r : RInv st g gl F) (c : Ctx st g gl) (ag : st.acc gl)
    (h : retCode st gl = 1) : st.G gl < INF ∧ Clean g gl (vals st) := by
  have gi := r.v.gInf gl
  change st.G gl ≤ INF at gi
  have gf : st.g gl ≠ INFINITECOST := by
    intro e
    unfold retCode at h
    by_cases z : st.heap.isEmpty = true
    · rw [if_pos ⟨e, z⟩] at h; cases h
    · have z' : st.heap.isEmpty = false := by simpa using z
      rw [if_neg (by simp [z'])] at h
      split at h
      · cases h
      · rw [if_pos ⟨e, z'⟩] at h; cases h
  have gf' : st.G gl < INF := by
    rw [G_acc ag] at gi ⊢
    exact Nat.lt_of_le_of_ne gi gf
  refine ⟨gf', ?_⟩
  intro x q lt
  change st.V x < st.G x at lt
  change st.G gl < st.V x + g.H x
  have nc := r.jn.notClosed q lt
  have kx := r.l.inOpen r.nb r.nr (by omega) nc
  have ax := accV (st := st) (s := x) (by omega)
  have ml := min_le r.l.m.data.bp r.l.m.data.ord kx
  have z : st.heap.size ≠ 0 := by
    obtain ⟨sl, a1, a2, _, _⟩ := slot_of_keyOf r.l.m.data.bp kx
    omega
  have e1 : st.heap.isEmpty = false := by simp [Heap.isEmpty, z]
  unfold retCode at h
  rw [if_neg (by simp [e1])] at h
  by_cases hw : wants st gl = true
  · rw [if_pos ⟨e1, hw⟩] at h; cases h
  · unfold wants minKey Heap.getMinKey at hw
    rw [if_neg z] at hw
    simp only [CKey.gtB, Bool.or_eq_true, decide_eq_true_eq, Bool.and_eq_true, not_or, not_and, not_lt] at hw
    have gv : st.G gl ≤ st.V gl := by rw [G_acc ag, V_acc ag]; exact hw.2
    rw [r.l.keyUnder ax lt, CKey.le_def] at ml
    rw [r.l.keyOver ag gv, c.hg, infl_zero] at hw
    simp only [kat] at ml hw
    obtain ⟨⟨h1, h2⟩, _⟩ := hw
    omega

structure PathPost (st : ARA) (g : Gr) (gl : Nat) (F : Prop) (b : Nat) (p : ARA × Nat × List Nat) : Prop where
  r : RInv p.1 g gl F
  f : Fr st p.1
  ag : p.1.acc gl
  two : ∀ s, p.2.2.count s ≤ 2
  accT : ∀ s ∈ p.2.2, p.1.acc s
  ret : p.2.1 = retCode p.1 gl
  fin : p.2.2.length < b → loopCond p.1 gl = false
  len : p.2.2.length ≤ b

theorem computePath_spec {st : ARA} {g : Gr} {gl : Nat} {F : Prop} (b : Nat) (r : RInv st g gl F) (c : Ctx st g gl) :
    OkOr (computePath st b) (PathPost st g gl F b) := by
  have f := touch_fr r.l.m.data gl
  have ls := computeLoop_spec b (touch_rinv r gl) (c.fr f) (touch_acc r.l.m.data gl)
  unfold computePath
  rw [r.l.gr.goal]
  simp only
  cases e : computeLoop gl b (st.touch gl) with
  | error x => rw [e] at ls; exact ls
  | ok p =>
    rw [e] at ls
    obtain ⟨tr, st1⟩ := p
    have ls : LoopPost (st.touch gl) g gl F b tr st1 := ls
    exact ⟨ls.r, f.trans ls.f, ls.f.accM gl (touch_acc r.l.m.data gl), ls.two, ls.accT, rfl, ls.fin, ls.len⟩

end Sbpl.AD
