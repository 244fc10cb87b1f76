import Verif.Proofs.LazyARALoop
/-! Lazy ARA*: one ImprovePath call. -/

namespace Sbpl.LazyARA
open LazySpec Heap

variable {wf : (LazyElem → Nat) → List LazyElem → Prop}

/-- as `OkOr`, and with `return_first_solution` the search may not end within the given number of steps -/
def OkOrT {α : Type} (first : Bool) (r : Except Err α) (P : α → Prop) : Prop :=
  match r with
  | .ok a => P a
  | .error e => e = .heap .full ∨ (e = .noTermination ∧ first = true)

theorem OkOrT.imp {α : Type} {f : Bool} {r : Except Err α} {P Q : α → Prop} (h : OkOrT f r P) (i : ∀ a, P a → Q a) : OkOrT f r Q := by
  cases r with
  | ok a => exact i a h
  | error e => exact h

theorem key_nonneg {st : LazyARA} {gl : Nat} (hi : HInv st gl none) (z : st.heap.size ≠ 0) : ∃ u, keyOf st.heap u = some (st.heap.kat 1) ∧
    (st.heap.kat 1).k0 = ((st.g u + ARA.infl st.D st.eps (st.h u) : Nat) : Int) := by
  have := keyOf_slot hi.bp (Nat.le_refl 1) (by omega : 1 ≤ st.heap.size)
  refine ⟨_, this, ?_⟩
  rw [hi.keys _ _ (by simp) this]; rfl

/-- while the loop runs, start and goal differ -/
theorem cond_ne {st : LazyARA} {s0 gl : Nat} {H0 : Nat → Nat} (b : Base wf st s0 gl H0) (hc : st.loopCond gl = true) : s0 ≠ gl := by
  rintro rfl
  obtain ⟨hz, _, hg, _⟩ := loopCond_iff.mp hc
  obtain ⟨u, _, hk⟩ := key_nonneg b.hinv hz
  rw [b.sound.startG, b.sound.startT, hk] at hg
  rcases hg with h | h
  · omega
  · cases h

/-- the state expanded is within the bound of every walk to it -/
theorem popped_bound {st : LazyARA} {s0 gl s : Nat} {H0 : Nat → Nat} (b : Base wf st s0 gl H0) (o : Opt wf st s0 (pg gl)) (j : J st s0 gl)
    (n : s0 ≠ gl) (sg : s ≠ gl) (hg : H0 gl = 0) (so : keyOf st.heap s ≠ none) (lt : st.g s < st.v s)
    (mn : ∀ t k, keyOf st.heap t = some k → st.keyFor s ≤ k) {E : ARA.Bnd} (he : EpsLe st E) {c : Nat}
    (w : RWalk (st.Eg gl) s0 s c) : E.M * st.g s ≤ E.N * c := by
  have as := b.hinv.openAcc so
  by_cases s0s : s = s0
  · rw [s0s, b.sound.startG]; simp
  rcases walk_front b o j he w with h | ⟨x, co, r, h1, h2, h3, h4⟩
  · rw [B_acc as] at h
    rwa [show min (st.g s) (st.v s) = st.g s by omega] at h
  · have ax := b.hinv.openAcc h1
    have x0 : x ≠ s0 := by
      rintro rfl
      exact so (start_alone b o n h1 s as s0s).2
    cases e : keyOf st.heap x with
    | none => exact absurd e h1
    | some k =>
      have m := mn x k e
      rw [b.hinv.keys x k (by simp) e] at m
      have m' := Nat.mul_le_mul_left E.M (ARA.key_le m)
      have hs : st.h s = st.hOf s := by rw [b.hv s as, if_neg (by simp [s0s, sg])]
      have hx : E.M * ARA.infl st.D st.eps (st.h x) ≤ E.M * ARA.infl st.D st.eps (st.hOf x) := by
        rw [b.hv x ax]
        split
        next q =>
          rcases q with q | q
          · exact absurd q x0
          · rw [q, hg, ARA.infl_zero]; simp
        · exact Nat.le_refl _
      rw [hs, Nat.mul_add, Nat.mul_add] at m'
      have : E.N * c = E.N * co + E.N * r := by rw [← h3]; ring
      omega

/-- result of the loop -/
structure LoopPost (wf : (LazyElem → Nat) → List LazyElem → Prop) (st : LazyARA) (s0 gl : Nat) (H0 : Nat → Nat)
    (r : LazyARA × Bool × List Nat) : Prop where
  base : Base wf r.1 s0 gl H0
  fr : Fr st r.1
  nodup : r.2.2.Nodup
  fresh : ∀ s ∈ r.2.2, ¬ st.closed s
  cl : ∀ t, r.1.closed t ↔ t ∈ r.2.2 ∨ st.closed t
  noGoal : gl ∉ r.2.2
  vMono : ∀ s, r.1.V s ≤ st.V s
  vGoal : r.1.v gl = st.v gl
  epGoal : r.1.epar gl = st.epar gl
  opt : Low st → Opt wf st s0 (pg gl) → Opt wf r.1 s0 (pg gl)
  j : Low st → Opt wf st s0 (pg gl) → H0 gl = 0 → J st s0 gl → J r.1 s0 gl
  fin : r.2.1 = false → r.1.loopCond gl = false
  time : r.2.1 = true → st.first = false ∧ r.1.loopCond gl = true

theorem epsLe_fr {a b : LazyARA} (f : Fr a b) {E : ARA.Bnd} (h : EpsLe b E) : EpsLe a E := by
  refine ⟨h.one, ?_⟩
  have := h.le
  rw [f.E, f.D, f.eps, f.hOf] at this
  exact this

theorem eg_fr {a b : LazyARA} (f : Fr a b) (gl : Nat) : b.Eg gl = a.Eg gl := by unfold Eg; rw [f.E]

theorem improveLoop_spec {s0 gl : Nat} {H0 : Nat → Nat} (n : Nat) : ∀ {st : LazyARA}, Base wf st s0 gl H0 →
    OkOrT st.first (improveLoop gl n st) (LoopPost wf st s0 gl H0) := by
  induction n with
  | zero =>
    intro st b
    unfold improveLoop
    split
    next hc =>
      split
      next hf => exact .inr ⟨rfl, hf⟩
      next hf =>
        exact ⟨b, Fr.refl st, by simp, by simp, by simp, by simp, fun _ => Nat.le_refl _, rfl, rfl, fun _ h => h, fun _ _ _ h => h, by simp,
          fun _ => ⟨by simpa using hf, hc⟩⟩
    next hc =>
      exact ⟨b, Fr.refl st, by simp, by simp, by simp, by simp, fun _ => Nat.le_refl _, rfl, rfl, fun _ h => h, fun _ _ _ h => h,
        fun _ => by simpa using hc, by simp⟩
  | succ n ih =>
    intro st b
    unfold improveLoop
    split
    next hc =>
      have ne := cond_ne b hc
      have ss := step_spec (pg gl) b hc
      cases e : st.step with
      | error x => rw [e] at ss; exact .inl ss
      | ok r =>
        rw [e] at ss
        obtain ⟨s, ex, st1⟩ := r
        obtain ⟨b1, tn, op⟩ := ss
        simp only at b1 tn op ⊢
        have ih' := ih b1
        have ff : st1.first = st.first := tn.first
        rw [ff] at ih'
        cases e2 : improveLoop gl n st1 with
        | error x => rw [e2] at ih'; exact ih'
        | ok r =>
          rw [e2] at ih'
          obtain ⟨st2, out, tr⟩ := r
          have lp : LoopPost wf st1 s0 gl H0 (st2, out, tr) := ih'
          have low1 : Low st → Low st1 := by intro l; unfold Low; rw [tn.toFr.nbr, tn.toFr.tc]; exact l
          have as := b.hinv.openAcc tn.wasOpen
          have vle : ∀ u, st1.V u ≤ st.V u := by
            intro u
            by_cases q : ex = true ∧ u = s
            · rw [q.2, (tn.vSelf q.1).1, V_acc as]; exact Nat.le_of_lt (tn.vSelf q.1).2.1
            · rw [tn.vOther u (fun h c => q ⟨h, c⟩)]
          have vg : st1.v gl = st.v gl := by
            have := tn.vOther gl (fun h c => tn.noGoal h c.symm)
            rwa [V_acc b1.accG, V_acc b.accG] at this
          have j1 : Low st → Opt wf st s0 (pg gl) → H0 gl = 0 → J st s0 gl → J st1 s0 gl := by
            intro low o h0 hj E he t c hcl w
            have he' := epsLe_fr tn.toFr he
            rw [eg_fr tn.toFr] at w
            by_cases q : ex = true ∧ t = s
            · obtain ⟨v1, v2, v3⟩ := tn.vSelf q.1
              rw [q.2, v1]
              rw [q.2] at w
              exact popped_bound b o hj ne (tn.noGoal q.1) h0 tn.wasOpen v2 tn.isMin he' w
            · rw [tn.vOther t (fun h c => q ⟨h, c⟩)]
              exact hj E he' t c (((tn.cl t).mp hcl).resolve_left q) w
          have c1 : ex = true → st1.closed s := fun h => (tn.cl s).mpr (.inl ⟨h, rfl⟩)
          refine ⟨lp.base, tn.toFr.trans lp.fr, ?_, ?_, ?_, ?_, fun u => Nat.le_trans (lp.vMono u) (vle u), lp.vGoal.trans vg,
            lp.epGoal.trans tn.epGoal, fun low o => lp.opt (low1 low) (op low o), fun low o h0 hj => lp.j (low1 low) (op low o) h0 (j1 low o h0 hj),
            lp.fin, fun h => ⟨tn.first ▸ (lp.time h).1, (lp.time h).2⟩⟩
          · show (if ex = true then s :: tr else tr).Nodup
            split
            next h => exact List.nodup_cons.mpr ⟨fun hm => lp.fresh s hm (c1 h), lp.nodup⟩
            next => exact lp.nodup
          · intro t ht
            have ht : t ∈ (if ex = true then s :: tr else tr) := ht
            have key : t ∈ tr → ¬ st.closed t := fun hm hcl => lp.fresh t hm ((tn.cl t).mpr (.inr hcl))
            split at ht
            next h =>
              rcases List.mem_cons.mp ht with rfl | h
              · exact tn.notCl
              · exact key h
            next => exact key ht
          · intro t
            show st2.closed t ↔ t ∈ (if ex = true then s :: tr else tr) ∨ st.closed t
            have := lp.cl t
            simp only at this
            rw [this, tn.cl]
            split
            next h =>
              rw [List.mem_cons]
              simp only [h, true_and]
              constructor
              · rintro (h | h | h)
                · exact .inl (.inr h)
                · exact .inl (.inl h)
                · exact .inr h
              · rintro ((h | h) | h)
                · exact .inr (.inl h)
                · exact .inl h
                · exact .inr (.inr h)
            next h => simp [h]
          · show gl ∉ (if ex = true then s :: tr else tr)
            split
            next h =>
              rw [List.mem_cons]
              rintro (c | c)
              · exact tn.noGoal h c.symm
              · exact lp.noGoal c
            next => exact lp.noGoal
    next hc =>
      exact ⟨b, Fr.refl st, by simp, by simp, by simp, by simp, fun _ => Nat.le_refl _, rfl, rfl, fun _ h => h, fun _ _ _ h => h,
        fun _ => by simpa using hc, by simp⟩

/-! ### the end of the loop -/

theorem exit_true {st : LazyARA} {s0 gl : Nat} {H0 : Nat → Nat} (b : Base wf st s0 gl H0) (h : st.loopCond gl = false) (hg : H0 gl = 0) :
    st.isTrue gl = true := by
  by_contra c
  have hf : st.isTrue gl = false := by simpa using c
  obtain ⟨lt, _⟩ := b.sound.untrue gl b.accG hf
  have vI := b.sound.vInf gl b.accG
  have hO := (b.hinv.ltIn gl (by simp) b.accG lt).resolve_right b.goalNotInc
  cases e : keyOf st.heap gl with
  | none => exact hO e
  | some k =>
    obtain ⟨sl, a1, a2, _, _⟩ := slot_of_keyOf b.hinv.bp e
    have z : st.heap.size ≠ 0 := by omega
    have kk := b.hinv.keys gl k (by simp) e
    have hh : st.h gl = 0 := by rw [b.hv gl b.accG, if_pos (.inr rfl), hg]
    have m := min_le b.hinv.bp b.hinv.ord e
    rw [kk, CKey.le_def] at m
    have m1 : (st.heap.kat 1).k0 ≤ ((st.g gl : Nat) : Int) := by
      have hk0 : (st.keyFor gl).k0 = ((st.g gl : Nat) : Int) := by
        show ((st.g gl + ARA.infl st.D st.eps (st.h gl) : Nat) : Int) = _
        rw [hh, ARA.infl_zero, Nat.add_zero]
      rw [hk0] at m
      omega
    have : st.loopCond gl = true := by
      refine loopCond_iff.mpr ⟨z, ?_, .inr hf, ?_⟩
      · unfold INF INFINITECOST at vI; omega
      · omega
    rw [h] at this; cases this

/-- what the loop condition being false means -/
theorem exit_cases {st : LazyARA} {gl : Nat} (h : st.loopCond gl = false) (ht : st.isTrue gl = true) :
    st.heap.size = 0 ∨ (st.heap.size ≠ 0 ∧ ((st.heap.kat 1).k0 ≥ 1000000000 ∨ ((min (st.g gl) (st.v gl) : Nat) : Int) ≤ (st.heap.kat 1).k0)) := by
  by_cases z : st.heap.size = 0
  · exact .inl z
  · right
    refine ⟨z, ?_⟩
    by_contra c
    have : st.loopCond gl = true := loopCond_iff.mpr ⟨z, by omega, by omega, by omega⟩
    rw [h] at this; cases this

theorem exit_bound {st : LazyARA} {s0 gl : Nat} {H0 : Nat → Nat} (b : Base wf st s0 gl H0) (o : Opt wf st s0 (pg gl)) (j : J st s0 gl)
    (h : st.loopCond gl = false) (hg : H0 gl = 0) (hg' : st.hOf gl = 0) (hs : ARA.infl st.D st.eps (H0 s0) < INF)
    {E : ARA.Bnd} (he : EpsLe st E) {c : Nat} (w : RWalk (st.Eg gl) s0 gl c) : E.M * min (st.g gl) (st.v gl) ≤ E.N * c := by
  have ht := exit_true b h hg
  rcases walk_front b o j he w with h1 | ⟨x, co, r, h1, h2, h3, h4⟩
  · rwa [B_acc b.accG] at h1
  by_cases ne : s0 = gl
  · rw [← ne, b.sound.startG]; simp
  have ax := b.hinv.openAcc h1
  have vI := b.sound.vInf gl b.accG
  rw [hg', ARA.infl_zero] at h4
  cases e : keyOf st.heap x with
  | none => exact absurd e h1
  | some k =>
    obtain ⟨sl, a1, a2, _, _⟩ := slot_of_keyOf b.hinv.bp e
    have kk := b.hinv.keys x k (by simp) e
    have m := min_le b.hinv.bp b.hinv.ord e
    rw [kk, CKey.le_def] at m
    have m1 : (st.heap.kat 1).k0 ≤ ((st.g x + ARA.infl st.D st.eps (st.h x) : Nat) : Int) := by
      have : (st.keyFor x).k0 = ((st.g x + ARA.infl st.D st.eps (st.h x) : Nat) : Int) := rfl
      rw [this] at m
      omega
    have ex := exit_cases h ht
    have lower : min (st.g gl) (st.v gl) ≤ st.g x + ARA.infl st.D st.eps (st.h x) := by
      unfold INF INFINITECOST at vI
      rcases ex with h | ⟨_, h | h⟩
      · omega
      · omega
      · omega
    by_cases x0 : x = s0
    · subst x0
      obtain ⟨gI, _⟩ := start_alone b o ne h1 gl b.accG (Ne.symm ne)
      have hx : st.h x = H0 x := by rw [b.hv x ax, if_pos (.inl rfl)]
      rw [b.sound.startG, hx, Nat.zero_add] at lower m1
      have v0 : st.v gl = INF := by
        rcases b.sound.gCase gl b.accG with q | q | q
        · omega
        · omega
        · by_contra c
          have := o.root gl b.accG (by omega)
          rcases b.hinv.openLt x h1 with q | ⟨q, _⟩
          · have := b.sound.startG
            rcases b.sound.startV with q' | q' <;> omega
          · exact ne q
      rw [gI, v0] at lower
      omega
    · have hx : E.M * ARA.infl st.D st.eps (st.h x) ≤ E.M * ARA.infl st.D st.eps (st.hOf x) := by
        rw [b.hv x ax]
        split
        next q =>
          rcases q with q | q
          · exact absurd q x0
          · rw [q, hg, ARA.infl_zero]; simp
        · exact Nat.le_refl _
      have l2 := Nat.mul_le_mul_left E.M lower
      rw [Nat.mul_add] at l2
      have : E.N * c = E.N * co + E.N * r := by rw [← h3]; ring
      omega

end Sbpl.LazyARA
