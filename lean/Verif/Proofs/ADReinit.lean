import Verif.Proofs.ADSearch
import Verif.Proofs.ADPath
import Verif.Proofs.ARAApi
import Verif.Spec.AD
/-! AD*: the graph of an environment, starting a search from scratch. -/

namespace Sbpl.AD
open GraphSpec ARA Heap PlannerSpec ADSpec

/-- the search graph of an environment -/
def grOf (env : PEnv) (fwd : Bool) (m : Nat) (ab : Option Nat) (s0 gl : Nat) : Gr where
  B := searchGraph env fwd s0
  R := if fwd then env.preds gl else env.succs s0
  s0 := s0
  A := fun s => fwd = true → ab ≠ some s
  Q := fun t => fwd = false → DualAt env s0 t
  H := if fwd then env.hGoal gl else env.hStart gl
  m := m

theorem grOf_ok {env : PEnv} {fwd : Bool} {m : Nat} {ab : Option Nat} (e : EnvAD env fwd m ab) (s0 gl : Nat) :
    GOk (grOf env fwd m ab s0 gl) := by
  cases fwd with
  | true =>
    have hh := e.heur
    unfold HeurOk at hh
    rw [if_pos rfl] at hh
    refine ⟨?_, ?_, ?_, ?_, ?_⟩
    · intro u t c h; exact e.ok.posS _ u t c h
    · intro u t c h; exact e.lo.1 _ u t c h
    · intro t u c _ _ h
      change (u, c) ∈ env.preds gl t at h
      rw [e.predsIndep rfl gl (u + 1)] at h
      exact e.ok.dualP (u + 1) u t c (by omega) h
    · intro s _ q; exact absurd (fun x => by cases x) q
    · intro u t c h
      change env.hGoal gl u ≤ env.hGoal gl t + c
      change (t, c) ∈ env.succs (u + 1) u at h
      by_cases q : u = gl
      · subst q; rw [(hh u).1]; omega
      · rw [e.ok.goalIndep (u + 1) gl u (by omega) q] at h
        exact (hh gl).2 u t c h
  | false =>
    have hh := e.heur
    unfold HeurOk at hh
    rw [if_neg (by simp)] at hh
    refine ⟨?_, ?_, ?_, ?_, ?_⟩
    · intro u t c h; exact e.ok.posP _ u t c h
    · intro u t c h; exact e.lo.2 _ u t c h
    · intro t u c q _ h
      exact q rfl u c h
    · intro s ne q
      rcases e.back rfl s0 s ne with h | h
      · exact h
      · exact absurd (fun _ => h) q
    · intro u t c h
      exact (hh s0 gl).2 u t c h

theorem grOf_is {st : ARA} {m : Nat} {ab : Option Nat} (e : EnvAD st.env st.fwd m ab) {s0 gl : Nat}
    (h0 : st.start = some s0) (hg : st.goal = some gl) (hab : st.fwd = true → ab = none ∨ ab = some gl) :
    IsGr st (grOf st.env st.fwd m ab s0 gl) gl := by
  refine ⟨?_, ?_, ?_, hg, h0, ?_⟩
  · funext s; simp [base, grOf, searchGraph, h0]
  · funext s; simp only [AD.rev, grOf, h0, hg, Option.getD_some]; split <;> rfl
  · funext s; simp only [heur, grOf]; split <;> rfl
  · intro s hA
    simp only [nbr, grOf, searchGraph, h0, hg, Option.getD_some]
    split
    next f =>
      rcases hab f with h | h
      · exact e.nonAbs f h gl s
      · have : s ≠ gl := by rintro rfl; exact hA f h
        exact e.ok.goalIndep gl (s + 1) s this (by omega)
    · rfl

theorem grOf_ctx {st : ARA} {m : Nat} {ab : Option Nat} (e : EnvAD st.env st.fwd m ab) {s0 gl : Nat}
    (hab : st.fwd = true → ab = none ∨ ab = some gl) (hd : st.fwd = false → DualAt st.env s0 gl) (dp : 0 < st.D)
    (de : st.D ≤ st.eps) : Ctx st (grOf st.env st.fwd m ab s0 gl) gl := by
  refine ⟨grOf_ok e s0 gl, ?_, hd, ?_, dp, de⟩
  · intro s ne f h
    rcases hab f with h' | h' <;> rw [h'] at h
    · cases h
    · cases h; exact ne rfl
  · have hh := e.heur
    unfold HeurOk at hh
    simp only [grOf]
    split at hh
    next f => rw [if_pos f]; exact (hh gl).1
    next f => rw [if_neg f]; exact (hh s0 gl).1

/-- search graphs for different search goals share everything the value invariant needs -/
theorem grOf_goal {env : PEnv} {fwd : Bool} {m : Nat} {ab : Option Nat} (e : EnvAD env fwd m ab) (s0 gl gl' : Nat)
    {F : Prop} {w : Vals} (v : Idle (grOf env fwd m ab s0 gl) F w) : Idle (grOf env fwd m ab s0 gl') F w := by
  have hR : (grOf env fwd m ab s0 gl').R = (grOf env fwd m ab s0 gl).R := by
    funext t
    simp only [grOf]
    split
    next f => exact e.predsIndep f gl' gl t
    · rfl
  refine ⟨v.startA, v.startG, v.startP, v.gInf, v.vInf, v.actV, v.accN, ?_, v.ptrOk⟩
  intro f u t c h1 h2
  rw [hR] at h2
  exact v.edge f u t c h1 h2

theorem reinitSpace_spec {st : ARA} {s0 gl : Nat} {g : Gr} {F : Prop} (d : Data st) (gi : IsGr st g gl) (hs : g.s0 = s0)
    : OkOr (reinitSpace st) (fun st' => PInv (firstIter st') g gl F ∧ HOk st' gl ∧ st'.env = st.env ∧ st'.fwd = st.fwd ∧
      st'.D = st.D ∧ st'.start = st.start ∧ st'.goal = st.goal ∧ st'.initEps = st.initEps ∧
      st'.finalEps = st.finalEps ∧ st'.decEps = st.decEps ∧ st'.first = st.first ∧ st'.eps = st.initEps ∧
      st'.epsSat = none ∧ st'.bReinit = false ∧ st'.bReeval = false) := by
  have h0 : st.start = some s0 := by rw [← hs]; exact gi.start
  have hg := gi.goal
  have e0 : reinitSpace st = reinitFrom st s0 := by unfold reinitSpace; rw [h0]
  rw [e0]
  unfold reinitFrom
  obtain ⟨m, ⟨r⟩⟩ := d.lrel
  obtain ⟨l', el, ⟨r'⟩⟩ := CList.makeEmptyLoop_rel (st.incons.size + 1) r (by rw [r.size]; omega)
  have el' : st.incons.makeEmpty = .ok l' := el
  rw [el']
  dsimp only
  obtain ⟨hb, hn, hz, ho, _⟩ := makeEmpty_spec d.bp
  generalize hst1 : ({ st with
        call := st.call + 1, iter := 0, heap := st.heap.makeEmpty, incons := l',
        eps := st.initEps, epsSat := none } : ARA) = st1
  have lE : ∀ s, l'.elem s = none := by
    intro s
    have := r'.elem_isSome s
    simpa using this
  have na1 : ∀ s, ¬ st1.acc s := by
    intro s h
    rw [← hst1] at h
    have := d.callLe s
    simp only [acc] at h; omega
  have d1 : Data st1 := by
    rw [← hst1]
    exact ⟨hb, ho, ⟨_, ⟨r'⟩⟩, fun s => Nat.le_succ_of_le (d.callLe s), fun s _ => hn s, fun s _ => lE s⟩
  have d2 := touch_data d1 s0
  obtain ⟨n1, n2, n3, n4, n5⟩ := touch_self_new d1 (na1 s0)
  have a2 := touch_acc_iff d1 s0
  obtain ⟨hh2, ll2, cc2, it2, ee2, ff2, gg2, ss2⟩ := touch_heap d1 s0
  have fr2 := touch_frame d1 s0
  have fd2 := touch_fr d1 s0
  generalize st1.touch s0 = st2 at *
  generalize hst3 : ({ st2 with g := upd st2.g s0 0 } : ARA) = st3
  have d3 : Data st3 := by
    rw [← hst3]; exact ⟨d2.bp, d2.ord, d2.lrel, d2.callLe, d2.staleH, d2.staleL⟩
  have ac3 : ∀ t, st3.acc t ↔ t = s0 := by
    intro t; rw [← hst3]
    show st2.acc t ↔ _
    rw [a2]; simp [na1 t]
  have g3 : st3.g s0 = 0 := by rw [← hst3]; simp
  have v3 : st3.v s0 = INF := by rw [← hst3]; exact n2
  have i3 : st3.iterC s0 = 0 := by rw [← hst3]; exact n3
  have p3 : st3.ptr s0 = none := by rw [← hst3]; exact n5
  have flds : st3.env = st.env ∧ st3.fwd = st.fwd ∧ st3.D = st.D ∧ st3.start = st.start ∧ st3.goal = st.goal ∧
      st3.initEps = st.initEps ∧ st3.finalEps = st.finalEps ∧ st3.decEps = st.decEps ∧ st3.first = st.first ∧
      st3.eps = st.initEps ∧ st3.epsSat = none ∧ st3.iter = 0 := by
    rw [← hst3]
    dsimp only
    rw [fd2.env, fd2.fwd, fd2.D, fd2.start, fd2.goal, fd2.initEps, fd2.finalEps, fd2.decEps, fd2.first, fd2.eps, fd2.epsSat,
      fd2.iter, ← hst1]
    simp
  have h3 : st3.h s0 = st.heur gl s0 := by
    rw [← hst3]; show st2.h s0 = _
    rw [n4]
    have : st1.goal = some gl := by rw [← hst1]; exact hg
    rw [this, ← hst1]; rfl
  have heap3 : st3.heap = st.heap.makeEmpty := by
    rw [← hst3]; show st2.heap = _; rw [hh2, ← hst1]
  have inc3 : st3.incons = l' := by
    rw [← hst3]; show st2.incons = _; rw [ll2, ← hst1]
  clear hst1 hst3 n1 n2 n3 n4 n5 a2 hh2 ll2 cc2 it2 ee2 ff2 gg2 ss2 fr2 fd2 d2 d1 na1
  obtain ⟨k1, k2, k3, k4, k5, k6, k7, k8, k9, k10, k11, k12⟩ := flds
  have none3 : ∀ t, keyOf st3.heap t = none := by intro t; rw [heap3]; exact hn t
  unfold openStart
  cases e : st3.heap.insert s0 (keyFor st3 s0) with
  | error x => exact .inl (by rw [heap_insert_err (none3 s0) e])
  | ok h' =>
    obtain ⟨b1, b2, _, b4, _⟩ := insert_spec d3.bp e
    have kO : ∀ t, t ≠ s0 → keyOf h' t = none := by
      intro t q
      rw [b2, upd_other _ _ q]; exact none3 t
    have kS : keyOf h' s0 = some (keyFor st3 s0) := by rw [b2, upd_same]
    have nI : ∀ t, ¬ st3.Inc t := by
      intro t h; unfold ARA.Inc at h; rw [inc3] at h; exact h (lE t)
    have fI : firstIter { st3 with heap := h', bReinit := false, bReeval := false, bNew := false } =
        { st3 with heap := h', bReinit := false, bReeval := false, bNew := false, iter := 1 } := by
      unfold firstIter; rw [if_pos k12]
    have hok : HOk ({ st3 with heap := h', bReinit := false, bReeval := false, bNew := false } : ARA) gl := by
      intro t ht
      have : t = s0 := (ac3 t).mp ht
      subst this
      show st3.h t = (if st3.fwd = true then st3.env.hGoal gl t else st3.env.hStart gl t)
      rw [h3, k1, k2]; rfl
    refine ⟨?_, hok, k1, k2, k3, k4, k5, k6, k7, k8, k9, k10, k11, rfl, rfl⟩
    rw [fI]
    have acE : ∀ t, ({ st3 with heap := h', bReinit := false, bReeval := false, bNew := false, iter := 1 } : ARA).acc t ↔
        t = s0 := ac3
    have hG : ∀ t, (vals { st3 with heap := h', bReinit := false, bReeval := false, bNew := false, iter := 1 }).G t =
        if t = s0 then 0 else INF := by
      intro t
      show st3.G t = _
      by_cases q : t = s0
      · rw [if_pos q, G_acc ((ac3 t).mpr q), q, g3]
      · rw [if_neg q, G_stale (fun h => q ((ac3 t).mp h))]
    have hV : ∀ t, (vals { st3 with heap := h', bReinit := false, bReeval := false, bNew := false, iter := 1 }).V t = INF := by
      intro t
      show st3.V t = _
      by_cases q : t = s0
      · rw [V_acc ((ac3 t).mpr q), q, v3]
      · rw [V_stale (fun h => q ((ac3 t).mp h))]
    have nc : ∀ s, ¬ ({ st3 with heap := h', bReinit := false, bReeval := false, bNew := false, iter := 1 } : ARA).closed s := by
      rintro s ⟨h1, h2⟩
      have h1' := (ac3 s).mp h1
      subst h1'
      have h2' : st3.iterC s = 1 := h2
      omega
    refine ⟨⟨⟨b1, b4 d3.ord, d3.lrel, d3.callLe, ?_, d3.staleL⟩, ?_, ?_, Nat.le_refl 1, ?_, ?_, ?_, ?_⟩, ?_, (fun h => by cases h), ?_, fun x _ _ k hk => absurd hk (nc k), fun s hs => absurd hs (nc s),
      fun _ _ _ s _ hs => absurd hs (nc s), ?_⟩
    · intro t h
      exact kO t (fun q => h ((acE t).mpr q))
    · intro t _ a
      have : t = s0 := (ac3 t).mp a
      subst this
      show (keyOf h' t ≠ none ∨ st3.Inc t) ↔ st3.v t ≠ st3.g t
      rw [kS, g3, v3]
      simp [INF, INFINITECOST]
    · rintro t ⟨_, h2⟩
      exact nI t h2
    · intro t h
      change keyOf h' t ≠ none at h
      show st3.iterC t ≠ 1
      by_cases q : t = s0
      · rw [q, i3]; omega
      · exact absurd (kO t q) h
    · intro t a
      have : t = s0 := (ac3 t).mp a
      subst this
      show st3.iterC t ≤ 1
      omega
    · intro _ t _ h
      exact absurd h (nI t)
    · intro _ t k _ h
      change keyOf h' t = some k at h
      by_cases q : t = s0
      · subst q; rw [kS] at h; cases h; rfl
      · rw [kO t q] at h; cases h
    · refine ⟨?_, ?_, ?_, k5.trans hg, by show st3.start = _; rw [k4]; exact gi.start, ?_⟩
      · rw [← gi.base]; funext s; simp only [base, k1, k2, k4]
      · rw [← gi.rev]; funext s; simp only [AD.rev, k1, k2, k4, k5]
      · rw [← gi.heur]; funext s; simp only [heur, k1, k2]
      · intro s hs; rw [← gi.nbr s hs]; simp only [nbr, k1, k2, k4, k5]
    · refine ⟨(acE _).mpr hs, by rw [hG, if_pos hs], ?_, ?_, fun s => by rw [hV], ?_, ?_, ?_, ?_⟩
      · rw [hs]
        show (if st3.acc s0 then st3.ptr s0 else none) = none
        rw [if_pos ((ac3 s0).mpr rfl)]; exact p3
      · intro s; rw [hG]; split <;> simp
      · intro s h; rw [hV] at h; omega
      · intro _ u t c h; rw [hV] at h; omega
      · intro _ u t c _ _; right; rw [hV, hG]; split <;> omega
      · intro s _ h ne
        rw [hG, if_neg (by rw [hs] at ne; exact ne)] at h; omega
    · intro e' he
      have he : st3.epsSat = some e' := he
      rw [k11] at he; cases he

end Sbpl.AD
