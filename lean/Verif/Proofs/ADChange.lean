import Verif.Proofs.ADReinit
/-! AD*: costs_changed. -/

namespace Sbpl.AD
open GraphSpec ARA Heap PlannerSpec ADSpec

/-- value invariant while the changed states of `pend` are still to be recomputed -/
structure W (gr : Gr) (F : Prop) (w : Vals) (pend : List Nat) : Prop where
  startA : w.a gr.s0
  startG : w.G gr.s0 = 0
  startP : w.P gr.s0 = none
  stale : ∀ s, ¬ w.a s → w.G s = INF
  gInf : ∀ s, w.G s ≤ INF
  vInf : ∀ s, w.V s ≤ INF
  actV : ∀ s, w.V s < INF → gr.A s
  accN : F → ∀ u t c, w.V u < INF → (t, c) ∈ gr.B u → w.a t
  edge : F → ∀ u t c, (t, c) ∈ gr.B u → (u, c) ∈ gr.R t → (t ∈ pend ∧ w.a t ∧ t ≠ gr.s0) ∨ w.G t ≤ w.V u + c
  ptrOk : ∀ s, gr.Q s → w.G s < INF → s ≠ gr.s0 → s ∈ pend ∨
    ∃ p c, w.P s = some p ∧ (s, c) ∈ gr.B p ∧ w.V p + c ≤ w.G s

theorem W.idle {gr : Gr} {F : Prop} {w : Vals} (i : W gr F w []) : Idle gr F w := by
  refine ⟨i.startA, i.startG, i.startP, i.gInf, i.vInf, i.actV, fun f u t c h1 h2 => .inl (i.accN f u t c h1 h2), ?_, ?_⟩
  · intro f u t c h1 h2
    rcases i.edge f u t c h1 h2 with ⟨h, _⟩ | h
    · cases h
    · exact .inr h
  · intro s q h n
    rcases i.ptrOk s q h n with h | ⟨p, c, h1, h2, h3⟩
    · cases h
    · exact ⟨p, c, h1, h2, .inl h3⟩

theorem W.skip {gr : Gr} {F : Prop} {w : Vals} {s : Nat} {ss : List Nat} (i : W gr F w (s :: ss))
    (h : ¬ (s ≠ gr.s0 ∧ w.a s)) : W gr F w ss := by
  refine ⟨i.startA, i.startG, i.startP, i.stale, i.gInf, i.vInf, i.actV, i.accN, ?_, ?_⟩
  · intro f u t c h1 h2
    rcases i.edge f u t c h1 h2 with ⟨h3, h4, h5⟩ | h3
    · rcases List.mem_cons.mp h3 with rfl | h3
      · exact absurd ⟨h5, h4⟩ h
      · exact .inl ⟨h3, h4, h5⟩
    · exact .inr h3
  · intro t q lt ne
    rcases i.ptrOk t q lt ne with h3 | h3
    · rcases List.mem_cons.mp h3 with rfl | h3
      · exfalso
        apply h
        refine ⟨ne, ?_⟩
        by_contra a
        rw [i.stale t a] at lt; omega
      · exact .inl h3
    · exact .inr h3

theorem W.step {gr : Gr} {F : Prop} {w : Vals} {s : Nat} {ss : List Nat} (i : W gr F w (s :: ss)) (g : GOk gr)
    (ne : s ≠ gr.s0) (ha : w.a s) {r : Nat × Option Nat} (b : Best w.V (gr.R s) (w.P s) r) :
    W gr F { w with G := upd w.G s r.1, P := upd w.P s r.2 } ss := by
  refine ⟨i.startA, ?_, ?_, ?_, ?_, i.vInf, i.actV, i.accN, ?_, ?_⟩
  · simp only [upd_other _ _ ne.symm]; exact i.startG
  · simp only [upd_other _ _ ne.symm]; exact i.startP
  · intro t h
    have : t ≠ s := by rintro rfl; exact h ha
    simp only [upd_other _ _ this]; exact i.stale t h
  · intro t
    by_cases q : t = s
    · subst q; simp only [upd_same]; exact b.le
    · simp only [upd_other _ _ q]; exact i.gInf t
  · intro f u t c h1 h2
    by_cases q : t = s
    · subst q; right; simp only [upd_same]; exact b.min u c h2
    · simp only [upd_other _ _ q]
      rcases i.edge f u t c h1 h2 with ⟨h3, h4, h5⟩ | h3
      · rcases List.mem_cons.mp h3 with h3 | h3
        · exact absurd h3 q
        · exact .inl ⟨h3, h4, h5⟩
      · exact .inr h3
  · intro t hq lt n0
    by_cases q : t = s
    · subst q
      simp only [upd_same] at lt ⊢
      obtain ⟨u, c, h1, h2, h3⟩ := b.att lt
      exact .inr ⟨u, c, h1, g.revB t u c hq (i.actV u (by omega)) h2, Nat.le_of_eq h3⟩
    · simp only [upd_other _ _ q] at lt ⊢
      rcases i.ptrOk t hq lt n0 with h3 | h3
      · rcases List.mem_cons.mp h3 with h3 | h3
        · exact absurd h3 q
        · exact .inl h3
      · exact .inr h3

structure ChangePost (st : ARA) (l : List Nat) (st' : ARA) (n : Nat) : Prop where
  m : MInv st' none
  f : Fr st st'
  cl : ∀ s, st'.closed s ↔ st.closed s
  zero : n = 0 → st' = st ∧ ∀ s ∈ l, st.start = some s ∨ ¬ st.acc s
  pos : (∃ s ∈ l, st.start ≠ some s ∧ st.acc s) → n ≠ 0
  w : ∀ (gr : Gr) (gl : Nat) (F : Prop), GOk gr → IsGr st gr gl → W gr F (vals st) l → W gr F (vals st') []

theorem changeLoop_spec (l : List Nat) : ∀ {st : ARA}, MInv st none →
    OkOr (changeLoop l st) (fun p => ChangePost st l p.1 p.2) := by
  induction l with
  | nil =>
    intro st m
    exact ⟨m, Fr.refl st, fun _ => Iff.rfl, fun _ => ⟨rfl, by simp⟩, (fun ⟨s, h, _⟩ => by cases h), fun _ _ _ _ _ h => h⟩
  | cons s ss ih =>
    intro st m
    unfold changeLoop
    by_cases h : st.start ≠ some s ∧ st.callA s = st.call
    · rw [if_pos h]
      have ac : st.acc s := h.2
      unfold recompute
      dsimp only
      have b := bestOf_spec ac
      generalize bestOf st (AD.rev st s) (INFINITECOST, ptrOf st s) = r at b
      have sm := setMembership_minv (setGP_minv m s r.1 r.2) (t := s) ac
      cases e : setMembership (setGP st s r.1 r.2) s with
      | error x => rw [e] at sm; exact sm
      | ok st1 =>
        rw [e] at sm
        obtain ⟨m1, hl⟩ : MInv st1 none ∧ HL (setGP st s r.1 r.2) st1 := sm
        have f1 := (setGP_fr st s r.1 r.2).trans hl.fr
        have ev : vals st1 = { vals st with G := upd st.G s r.1, P := upd (vals st).P s r.2 } := by
          rw [hl.vals]; exact setGP_vals ac r.1 r.2
        have c1 : ∀ t, st1.closed t ↔ st.closed t := fun t => (hl.closed t).trans Iff.rfl
        have ih' := ih m1
        dsimp only
        cases e2 : changeLoop ss st1 with
        | error x => rw [e2] at ih'; exact ih'
        | ok p =>
          obtain ⟨st2, n⟩ := p
          rw [e2] at ih'
          have ih' : ChangePost st1 ss st2 n := ih'
          refine ⟨ih'.m, f1.trans ih'.f, fun t => (ih'.cl t).trans (c1 t), (fun x => by cases x), (fun _ x => by cases x), ?_⟩
          intro gr gl F g gi w
          refine ih'.w gr gl F g (gi.fr f1) ?_
          rw [ev]
          refine w.step g ?_ ac ?_
          · rintro rfl; exact h.1 gi.start
          · rw [← gi.rev]; exact b
    · rw [if_neg h]
      refine (ih m).imp ?_
      rintro ⟨st2, n⟩ ih'
      refine ⟨ih'.m, ih'.f, ih'.cl, ?_, ?_, ?_⟩
      · intro z
        obtain ⟨h1, h2⟩ := ih'.zero z
        refine ⟨h1, ?_⟩
        intro t ht
        rcases List.mem_cons.mp ht with rfl | ht
        · by_cases q : st.start = some t
          · exact .inl q
          · exact .inr (fun a => h ⟨q, a⟩)
        · exact h2 t ht
      · rintro ⟨t, ht, h1, h2⟩
        rcases List.mem_cons.mp ht with rfl | ht
        · exact absurd ⟨h1, h2⟩ h
        · exact ih'.pos ⟨t, ht, h1, h2⟩
      · intro gr gl F g gi w
        refine ih'.w gr gl F g gi (w.skip ?_)
        rintro ⟨h1, h2⟩
        refine h ⟨?_, h2⟩
        rw [gi.start]
        intro x; cases x; exact h1 rfl

/-- the graph after the change, seen from the values before it -/
structure Upd (gr gr' : Gr) (F : Prop) (a : Nat → Prop) (l : List Nat) : Prop where
  s0 : gr'.s0 = gr.s0
  A : gr'.A = gr.A
  m : gr'.m = gr.m
  inB : ∀ t, t ∉ l → a t → ∀ u c, (t, c) ∈ gr.B u ↔ (t, c) ∈ gr'.B u
  inR : ∀ t, t ∉ l → a t → ∀ u c, (u, c) ∈ gr.R t ↔ (u, c) ∈ gr'.R t
  Q : ∀ t, t ∉ l → a t → (gr.Q t ↔ gr'.Q t)
  new : F → ∀ u t c, (t, c) ∈ gr'.B u → (∃ c', (t, c') ∈ gr.B u) ∨ a t

theorem Upd.w {gr gr' : Gr} {F : Prop} {w : Vals} {l : List Nat} (u : Upd gr gr' F w.a l) (i : Idle gr F w)
    (st : ∀ s, ¬ w.a s → w.G s = INF) : W gr' F w l := by
  have accN : F → ∀ x t c, w.V x < INF → (t, c) ∈ gr'.B x → w.a t := by
    intro f x t c h1 h2
    rcases u.new f x t c h2 with ⟨c', h3⟩ | h3
    · rcases i.accN f x t c' h1 h3 with h | ⟨_, h⟩
      · exact h
      · cases h
    · exact h3
  refine ⟨by rw [u.s0]; exact i.startA, by rw [u.s0]; exact i.startG, by rw [u.s0]; exact i.startP, st, i.gInf, i.vInf,
    by rw [u.A]; exact i.actV, accN, ?_, ?_⟩
  · intro f x t c h1 h2
    by_cases hl : t ∈ l
    · by_cases h0 : t = gr'.s0
      · right; rw [h0, u.s0, i.startG]; omega
      · by_cases ha : w.a t
        · exact .inl ⟨hl, ha, h0⟩
        · right
          rw [st t ha]
          by_contra lt
          exact ha (accN f x t c (by omega) h1)
    · right
      by_cases ha : w.a t
      · rcases i.edge f x t c ((u.inB t hl ha x c).mpr h1) ((u.inR t hl ha x c).mpr h2) with ⟨_, h⟩ | h
        · cases h
        · exact h
      · rw [st t ha]
        by_contra lt
        exact ha (accN f x t c (by omega) h1)
  · intro s q lt ne
    by_cases hl : s ∈ l
    · exact .inl hl
    · right
      rw [u.s0] at ne
      have ha : w.a s := by
        by_contra ha
        rw [st s ha] at lt; omega
      obtain ⟨p, c, h1, h2, h3⟩ := i.ptrOk s ((u.Q s hl ha).mpr q) lt ne
      refine ⟨p, c, h1, (u.inB s hl ha p c).mp h2, ?_⟩
      rcases h3 with h3 | ⟨_, _, _, h3⟩
      · exact h3
      · cases h3

/-- if nothing was recomputed, the walks through expanded states are the old ones -/
theorem Upd.walk {gr gr' : Gr} {F : Prop} {w : Vals} {l : List Nat} (u : Upd gr gr' F w.a l) (f : F)
    (i : W gr' F w l) (z : ∀ s ∈ l, s = gr.s0 ∨ ¬ w.a s) {o co : Nat} (wk : Walk (ex gr' w.V) gr'.s0 o co) :
    (∃ co', co' ≤ co ∧ Walk (ex gr w.V) gr.s0 o co') ∧ w.a o := by
  induction wk with
  | nil => exact ⟨⟨0, Nat.le_refl _, by rw [u.s0]; exact .nil⟩, i.startA⟩
  | @snoc b t n c wk hm ih =>
    obtain ⟨⟨co', h1, h2⟩, _⟩ := ih
    obtain ⟨h3, h4⟩ := mem_ex.mp hm
    obtain ⟨h5, h6⟩ := mem_ed.mp h4
    have ha := i.accN f b t c h3 h5
    refine ⟨?_, ha⟩
    by_cases h0 : t = gr.s0
    · subst h0; exact ⟨0, Nat.zero_le _, .nil⟩
    · have nl : t ∉ l := by
        intro hl
        rcases z t hl with h | h
        · exact h0 h
        · exact h ha
      exact ⟨co' + c, by omega, h2.snoc (mem_ex.mpr ⟨h3, mem_ed.mpr ⟨(u.inB t nl ha b c).mpr h5, (u.inR t nl ha b c).mpr h6⟩⟩)⟩

theorem Upd.clean {gr gr' : Gr} {F : Prop} {w : Vals} {l : List Nat} {gl : Nat} (u : Upd gr gr' F w.a l)
    (sG : w.G gr.s0 = 0) (z : ∀ s ∈ l, s = gr.s0 ∨ ¬ w.a s) (hH : gr'.H = gr.H) (ia : ∀ s, w.V s < w.G s → w.a s)
    (k : Clean gr gl w) : Clean gr' gl w := by
  intro x q lt
  have nl : x ∉ l := by
    intro hl
    rcases z x hl with h | h
    · subst h; omega
    · exact h (ia x lt)
  rw [hH]
  exact k x ((u.Q x nl (ia x lt)).mpr q) lt

theorem Upd.sub {gr gr' : Gr} {F : Prop} {w : Vals} {l : List Nat} {D e gl : Nat} (u : Upd gr gr' F w.a l) (f : F)
    (i : W gr' F w l) (z : ∀ s ∈ l, s = gr.s0 ∨ ¬ w.a s) (hH : gr'.H = gr.H) (k : Sub gr D e gl w) :
    Sub gr' D e gl w := by
  intro E hE o co wk ho
  obtain ⟨⟨co', h1, h2⟩, ha⟩ := u.walk f i z wk
  rw [u.m] at hE
  rw [hH]
  have : E.M * w.G gl ≤ E.N * co' + E.M * infl D e (gr.H o) := by
    refine k E hE o co' h2 ?_
    rcases ho with ⟨h3, h4⟩ | h3
    · refine .inl ⟨h3, ?_⟩
      by_cases h0 : o = gr.s0
      · exact .inr h0
      · refine .inl ?_
        have nl : o ∉ l := by
          intro hl
          rcases z o hl with h | h
          · exact h0 h
          · exact h ha
        rw [u.s0] at h4
        exact (u.Q o nl ha).mpr (h4.resolve_right h0)
    · exact .inr h3
  exact Nat.le_trans this (Nat.add_le_add_right (Nat.mul_le_mul_left _ h1) _)

theorem grOf_upd {st : ARA} {env' : PEnv} {m : Nat} {ab : Option Nat} {s0 gl : Nat} {F : Prop} {l : List Nat} {a : Nat → Prop}
    (e : EnvAD st.env st.fwd m ab) (e' : EnvAD env' st.fwd m ab) (cv : Covers st.env env' st.fwd l a)
    (ne : F → NoNewEdges st.env env' st.fwd a) :
    Upd (grOf st.env st.fwd m ab s0 gl) (grOf env' st.fwd m ab s0 gl) F a l := by
  have inR : ∀ t, t ∉ l → a t → ∀ u c, (u, c) ∈ (grOf st.env st.fwd m ab s0 gl).R t ↔ (u, c) ∈ (grOf env' st.fwd m ab s0 gl).R t := by
    intro t hl ha u c
    simp only [grOf]
    by_cases f : st.fwd = true
    · have := (cv gl t hl ha).2 u c
      simp only [revEdges, if_pos f] at this ⊢
      exact this
    · have := (cv s0 t hl ha).2 u c
      simp only [revEdges, if_neg f] at this ⊢
      exact this
  refine ⟨rfl, rfl, rfl, fun t hl ha => (cv s0 t hl ha).1, inR, ?_, fun f => ne f s0⟩
  intro t hl ha
  show (st.fwd = false → DualAt st.env s0 t) ↔ (st.fwd = false → DualAt env' s0 t)
  by_cases f : st.fwd = false
  · have h1 := (cv s0 t hl ha).1
    have h2 := (cv s0 t hl ha).2
    simp only [searchGraph, revEdges, f, Bool.false_eq_true, if_false] at h1 h2
    simp only [f, true_implies, DualAt]
    constructor
    · intro h u c x; exact (h1 u c).mp (h u c ((h2 u c).mpr x))
    · intro h u c x; exact (h1 u c).mpr (h u c ((h2 u c).mp x))
  · simp [f]

end Sbpl.AD
