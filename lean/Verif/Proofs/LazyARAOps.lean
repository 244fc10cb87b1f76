import Verif.Proofs.LazyARA
/-! Lazy ARA*: insertLazyList, getNextLazyElement, EvaluateState, ExpandState. -/

namespace Sbpl.LazyARA
open LazySpec Heap

variable {wf : (LazyElem → Nat) → List LazyElem → Prop}

theorem rep_other {st : LazyARA} {s g' : Nat} {p' : Option Nat} {t' : Bool} {l' : List LazyElem} {u t c : Nat} (q : t ≠ s) (h : Rep st u t c) :
    Rep (st.setS s g' p' t' l') u t c := by
  refine ⟨h.1, ?_⟩
  show st.v t ≤ st.v u + c ∨ (upd st.isTrue s t' t = true ∧ upd st.g s g' t ≤ st.v u + c) ∨
    (upd st.isTrue s t' t = false ∧ upd st.par s p' t = some u ∧ st.trueCost u t = (c : Int)) ∨
    (upd st.isTrue s t' t = false ∧ ∃ e ∈ upd st.lazy s l' t, st.val e ≤ st.v u + c ∧ (e.isTrue = true ∨ (e.par = u ∧ st.trueCost u t = (c : Int))))
  rw [upd_other _ _ q, upd_other _ _ q, upd_other _ _ q, upd_other _ _ q]
  exact h.2

theorem opt_setS {st : LazyARA} {s0 s g' : Nat} {p' : Option Nat} {t' : Bool} {l' : List LazyElem} {pend' pend : Rel} (i : Opt wf st s0 pend')
    (hp : ∀ u t c, t ≠ s → pend' u t c → pend u t c)
    (hr : ∀ u c, st.acc u → st.v u < INF → st.E u s c → (pend' u s c ∨ Rep st u s c) → pend u s c ∨ Rep (st.setS s g' p' t' l') u s c)
    (ho : t' = false → ∀ e ∈ l', g' ≤ st.val e) (hw : wf st.val l')
    (hu : ∀ p, t' = false → p' = some p → 0 < st.trueCost p s → (g' : Int) ≤ st.v p + st.trueCost p s)
    (he : ∀ e ∈ l', e.isTrue = false → 0 < st.trueCost e.par s → (e.cost : Int) ≤ st.trueCost e.par s) :
    Opt wf (st.setS s g' p' t' l') s0 pend := by
  refine ⟨?_, ?_, ?_, ?_, ?_, i.once, i.root⟩
  · intro u t c au vu ee
    by_cases q : t = s
    · subst q; exact hr u c au vu ee (i.rep u t c au vu ee)
    · rcases i.rep u t c au vu ee with h | h
      · exact .inl (hp u t c q h)
      · exact .inr (rep_other q h)
  · intro u au hf e hm
    have hf : upd st.isTrue s t' u = false := hf
    have hm : e ∈ upd st.lazy s l' u := hm
    show upd st.g s g' u ≤ st.val e
    by_cases q : u = s
    · subst q
      rw [upd_same] at hf hm ⊢; exact ho hf e hm
    · rw [upd_other _ _ q] at hf hm ⊢; exact i.ord u au hf e hm
  · intro u au
    show wf st.val (upd st.lazy s l' u)
    by_cases q : u = s
    · subst q; rw [upd_same]; exact hw
    · rw [upd_other _ _ q]; exact i.wfq u au
  · intro u p au hf hpar hpos
    have hf : upd st.isTrue s t' u = false := hf
    have hpar : upd st.par s p' u = some p := hpar
    show ((upd st.g s g' u : Nat) : Int) ≤ st.v p + st.trueCost p u
    by_cases q : u = s
    · subst q
      rw [upd_same] at hf hpar ⊢; exact hu p hf hpar hpos
    · rw [upd_other _ _ q] at hf hpar ⊢; exact i.under u p au hf hpar hpos
  · intro u au e hm hf hpos
    have hm : e ∈ upd st.lazy s l' u := hm
    show (e.cost : Int) ≤ st.trueCost e.par u
    by_cases q : u = s
    · subst q; rw [upd_same] at hm; exact he e hm hf hpos
    · rw [upd_other _ _ q] at hm; exact i.elemUnder u au e hm hf hpos

/-- the edges `pend'` without those settled by processing `p → s` -/
def Cov (st : LazyARA) (p s cost : Nat) (tr : Bool) (pend' pend : Rel) : Prop :=
  ∀ u t c, pend' u t c → pend u t c ∨ (u = p ∧ t = s ∧ ((tr = true ∧ c = cost) ∨ (tr = false ∧ st.trueCost p s = (c : Int))))

/-- result of one insertion -/
structure InsPost (wf : (LazyElem → Nat) → List LazyElem → Prop) (st : LazyARA) (s0 gl p s cost : Nat) (tr : Bool) (st' : LazyARA) : Prop where
  sound : Sound st' s0
  hinv : HInv st' gl none
  step : Step st st'
  opt : ∀ pend' pend, Opt wf st s0 pend' → (tr = false → 0 < st.trueCost p s → (cost : Int) ≤ st.trueCost p s) → Cov st p s cost tr pend' pend →
    Opt wf st' s0 pend

theorem set_spec {st : LazyARA} {s0 gl s p cost : Nat} {tr : Bool} {l' : List LazyElem} (sd : Sound st s0) (hi : HInv st gl none)
    (as : st.acc s) (ap : st.acc p) (hc : 1 ≤ cost) (ht : tr = true → st.E p s cost) (hl : tr = false → (s, cost, false) ∈ st.nbr p)
    (lt1 : st.v p + cost < st.v s) (lt2 : st.v p + cost < st.g s) (h4 : ∀ e ∈ l', ElemOk st s e) (h5 : tr = true → l' = []) :
    OkOr ((st.setS s (st.v p + cost) (some p) tr l').putInHeap s) (fun st' => Sound st' s0 ∧ HInv st' gl none ∧ Step st st' ∧
      SameS (st.setS s (st.v p + cost) (some p) tr l') st') := by
  have n0 : s ≠ s0 := by rintro rfl; rw [sd.startG] at lt2; omega
  have vI := sd.vInf s as
  have s1 := sound_setS (g' := st.v p + cost) (p' := some p) (t' := tr) (l' := l') sd n0 (.inl lt1) (fun h => ⟨p, cost, rfl, ap, hl h, by omega⟩)
    (fun h _ => ⟨p, cost, rfl, ap, ht h, Nat.le_refl _⟩) h4 h5
  have h1 := hinv_setS (p' := some p) (t' := tr) (l' := l') hi (.inl rfl) lt1
  have lt' : (st.setS s (st.v p + cost) (some p) tr l').g s < (st.setS s (st.v p + cost) (some p) tr l').v s := by
    show upd st.g s _ s < st.v s
    rw [upd_same]; exact lt1
  refine (put_spec h1 as lt').imp ?_
  rintro st' ⟨a, b⟩
  exact ⟨b.sound s1, a, (setS_step _ _ _ _ _ _).trans b.step, b⟩

theorem insert_spec {st : LazyARA} {s0 gl s p cost : Nat} {tr : Bool} (q : QueueOk st.Q wf) (pos : ∀ p s c, st.E p s c → 1 ≤ c) (sd : Sound st s0)
    (hi : HInv st gl none) (as : st.acc s) (ap : st.acc p) (hc : 1 ≤ cost) (ht : tr = true → st.E p s cost)
    (hl : tr = false → (s, cost, false) ∈ st.nbr p) :
    OkOr (st.insertLazy s p cost tr) (InsPost wf st s0 gl p s cost tr) := by
  -- the settled edge costs at least `cost`
  have key : ∀ (pend' pend : Rel), (tr = false → 0 < st.trueCost p s → (cost : Int) ≤ st.trueCost p s) → Cov st p s cost tr pend' pend →
      ∀ u c, st.E u s c → pend' u s c → pend u s c ∨ (u = p ∧ cost ≤ c ∧ ((tr = true ∧ c = cost) ∨ (tr = false ∧ st.trueCost p s = (c : Int)))) := by
    intro pend' pend low cov u c ee h
    rcases cov u s c h with h | ⟨rfl, _, h⟩
    · exact .inl h
    · refine .inr ⟨rfl, ?_, h⟩
      rcases h with ⟨_, h⟩ | ⟨h1, h2⟩
      · omega
      · have := low h1 (by have := pos _ _ _ ee; omega)
        omega
  have covO : ∀ (pend' pend : Rel), Cov st p s cost tr pend' pend → ∀ u t c, t ≠ s → pend' u t c → pend u t c := by
    intro pend' pend cov u t c hne h
    rcases cov u t c h with h | ⟨_, h, _⟩
    · exact h
    · exact absurd h hne
  unfold insertLazy
  split
  next h1 =>
    refine ⟨sd, hi, Step.refl st, ?_⟩
    intro pend' pend o low cov
    refine ⟨?_, o.ord, o.wfq, o.under, o.elemUnder, o.once, o.root⟩
    intro u t c au vu ee
    rcases o.rep u t c au vu ee with h | h
    · by_cases e : t = s
      · subst e
        rcases key pend' pend low cov u c ee h with h | ⟨rfl, h, _⟩
        · exact .inl h
        · exact .inr ⟨as, .inl (by omega)⟩
      · exact .inl (covO _ _ cov u t c e h)
    · exact .inr h
  next h1 =>
    split
    next h2 =>
      split
      next ht' =>
        refine ⟨sd, hi, Step.refl st, ?_⟩
        intro pend' pend o low cov
        refine ⟨?_, o.ord, o.wfq, o.under, o.elemUnder, o.once, o.root⟩
        intro u t c au vu ee
        rcases o.rep u t c au vu ee with h | h
        · by_cases e : t = s
          · subst e
            rcases key pend' pend low cov u c ee h with h | ⟨rfl, h, _⟩
            · exact .inl h
            · exact .inr ⟨as, .inr (.inl ⟨ht', by omega⟩)⟩
          · exact .inl (covO _ _ cov u t c e h)
        · exact .inr h
      next ht' =>
        have hf : st.isTrue s = false := by simpa using ht'
        have n0 : s ≠ s0 := by rintro rfl; rw [sd.startT] at hf; cases hf
        obtain ⟨g1, p0, lc, g2, g3, g4, g5⟩ := sd.untrue s as hf
        have eq : ({ st with lazy := upd st.lazy s (st.Q.push st.val ⟨p, cost, tr⟩ (st.lazy s)) } : LazyARA) =
            st.setS s (st.g s) (st.par s) (st.isTrue s) (st.Q.push st.val ⟨p, cost, tr⟩ (st.lazy s)) := by
          have u1 : upd st.g s (st.g s) = st.g := by funext u; unfold upd; split <;> simp_all
          have u2 : upd st.par s (st.par s) = st.par := by funext u; unfold upd; split <;> simp_all
          have u3 : upd st.isTrue s (st.isTrue s) = st.isTrue := by funext u; unfold upd; split <;> simp_all
          unfold setS; rw [u1, u2, u3]
        rw [eq]
        have em : ∀ e ∈ st.Q.push st.val ⟨p, cost, tr⟩ (st.lazy s), ElemOk st s e := by
          intro e he
          rw [q.pushMem] at he
          rcases he with rfl | he
          · exact ⟨ap, hc, by show st.v p + cost < st.v s; omega, fun h => ⟨cost, Nat.le_refl _, ht h⟩, fun h => ⟨cost, hl h⟩⟩
          · exact sd.elem s as e he
        refine ⟨sound_setS sd n0 (.inl g1) (fun _ => ⟨p0, lc, g2, g3, g4, g5⟩) (fun h => by rw [hf] at h; cases h) em
          (fun h => by rw [hf] at h; cases h), hinv_list hi, setS_step _ _ _ _ _ _, ?_⟩
        intro pend' pend o low cov
        refine opt_setS o (covO _ _ cov) ?_ ?_ (q.pushWf _ _ _ (o.wfq s as)) ?_ ?_
        · intro u c au vu ee h
          rcases h with h | ⟨_, h | h | h | ⟨h, e, he, h'⟩⟩
          · rcases key pend' pend low cov u c ee h with h | ⟨rfl, h, h'⟩
            · exact .inl h
            · refine .inr ⟨as, .inr (.inr (.inr ⟨?_, ⟨u, cost, tr⟩, ?_, ?_, ?_⟩))⟩
              · show upd st.isTrue s _ s = false
                rw [upd_same]; exact hf
              · show _ ∈ upd st.lazy s _ s
                rw [upd_same, q.pushMem]; exact .inl rfl
              · show st.v u + cost ≤ st.v u + c
                omega
              · rcases h' with ⟨h', _⟩ | ⟨_, h'⟩
                · exact .inl h'
                · exact .inr ⟨rfl, h'⟩
          · exact .inr ⟨as, .inl h⟩
          · rw [hf] at h; exact absurd h.1 (by simp)
          · refine .inr ⟨as, .inr (.inr (.inl ⟨?_, ?_, h.2.2⟩))⟩
            · show upd st.isTrue s _ s = false
              rw [upd_same]; exact hf
            · show upd st.par s _ s = _
              rw [upd_same]; exact h.2.1
          · refine .inr ⟨as, .inr (.inr (.inr ⟨?_, e, ?_, h'⟩))⟩
            · show upd st.isTrue s _ s = false
              rw [upd_same]; exact hf
            · show _ ∈ upd st.lazy s _ s
              rw [upd_same, q.pushMem]; exact .inr he
        · intro _ e he
          rw [q.pushMem] at he
          rcases he with rfl | he
          · exact h2
          · exact o.ord s as hf e he
        · intro p' _ hp' hpos
          exact o.under s p' as hf hp' hpos
        · intro e he hf' hpos
          rw [q.pushMem] at he
          rcases he with rfl | he
          · exact low hf' hpos
          · exact o.elemUnder s as e he hf' hpos
    next h2 =>
      have lt1 : st.v p + cost < st.v s := by omega
      have lt2 : st.v p + cost < st.g s := by omega
      have n0 : s ≠ s0 := by rintro rfl; rw [sd.startG] at lt2; omega
      have vI := sd.vInf s as
      -- the representation of other edges when the new candidate is a real edge
      have repT : ∀ (l' : List LazyElem) (pend' pend : Rel), tr = true → Opt wf st s0 pend' →
          (tr = false → 0 < st.trueCost p s → (cost : Int) ≤ st.trueCost p s) → Cov st p s cost tr pend' pend →
          ∀ u c, st.acc u → st.v u < INF → st.E u s c → (pend' u s c ∨ Rep st u s c) →
            pend u s c ∨ Rep (st.setS s (st.v p + cost) (some p) tr l') u s c := by
        intro l' pend' pend htr o low cov u c au vu ee h
        have R2 : st.v p + cost ≤ st.v u + c → Rep (st.setS s (st.v p + cost) (some p) tr l') u s c := by
          intro hle
          refine ⟨as, .inr (.inl ⟨?_, ?_⟩)⟩
          · show upd st.isTrue s tr s = true
            rw [upd_same]; exact htr
          · show upd st.g s _ s ≤ st.v u + c
            rw [upd_same]; exact hle
        rcases h with h | ⟨_, h | h | h | ⟨h, e, he, h'⟩⟩
        · rcases key pend' pend low cov u c ee h with h | ⟨rfl, h, _⟩
          · exact .inl h
          · exact .inr (R2 (by omega))
        · exact .inr ⟨as, .inl h⟩
        · exact .inr (R2 (by omega))
        · right; apply R2
          have := o.under s u as h.1 h.2.1 (by rw [h.2.2]; have := pos _ _ _ ee; omega)
          rw [h.2.2] at this
          omega
        · right; apply R2
          have := o.ord s as h e he
          omega
      split
      next hs =>
        obtain ⟨hs1, hs2⟩ := hs
        -- the previous best candidate
        have pv : ∃ p0, st.par s = some p0 ∧ ElemOk st s ⟨p0, st.g s - st.v p0, st.isTrue s⟩ ∧ st.v p0 + (st.g s - st.v p0) = st.g s := by
          cases hti : st.isTrue s with
          | true =>
            obtain ⟨p0, c, e1, e2, e3, e4⟩ := sd.truth s as hti (by omega) n0
            have := pos _ _ _ e3
            refine ⟨p0, e1, ⟨e2, by show 1 ≤ st.g s - st.v p0; omega, by show st.v p0 + (st.g s - st.v p0) < st.v s; omega,
              fun _ => ⟨c, by show c ≤ st.g s - st.v p0; omega, e3⟩, fun h => by simp at h⟩, by omega⟩
          | false =>
            obtain ⟨_, p0, lc, e1, e2, e3, e4⟩ := sd.untrue s as hti
            refine ⟨p0, e1, ⟨e2, by show 1 ≤ st.g s - st.v p0; omega, by show st.v p0 + (st.g s - st.v p0) < st.v s; omega,
              fun h => by simp at h, fun _ => ⟨lc, e3⟩⟩, by omega⟩
        obtain ⟨p0, hp0, ek, gE⟩ := pv
        unfold saveBest
        rw [hp0]
        simp only
        have eq : ({ st with lazy := upd st.lazy s (st.Q.push st.val ⟨p0, st.g s - st.v p0, st.isTrue s⟩ (st.lazy s)) } : LazyARA).setBest s p cost tr =
            (st.setS s (st.v p + cost) (some p) tr (st.Q.push st.val ⟨p0, st.g s - st.v p0, st.isTrue s⟩ (st.lazy s))).putInHeap s := by
          subst hs1
          rfl
        rw [eq]
        refine (set_spec sd hi as ap hc ht hl lt1 lt2 ?_ (fun h => by rw [hs1] at h; cases h)).imp ?_
        · intro e he
          rw [q.pushMem] at he
          rcases he with rfl | he
          · exact ek
          · exact sd.elem s as e he
        · rintro st' ⟨a1, a2, a3, a4⟩
          refine ⟨a1, a2, a3, ?_⟩
          intro pend' pend o low cov
          apply a4.opt
          refine opt_setS o (covO _ _ cov) ?_ ?_ (q.pushWf _ _ _ (o.wfq s as)) ?_ ?_
          · intro u c au vu ee h
            have sf : (st.setS s (st.v p + cost) (some p) tr (st.Q.push st.val ⟨p0, st.g s - st.v p0, st.isTrue s⟩ (st.lazy s))).isTrue s = false := by
              show upd st.isTrue s tr s = false
              rw [upd_same]; exact hs1
            have R4 : ∀ e, (e = ⟨p0, st.g s - st.v p0, st.isTrue s⟩ ∨ e ∈ st.lazy s) → st.val e ≤ st.v u + c →
                (e.isTrue = true ∨ (e.par = u ∧ st.trueCost u s = (c : Int))) →
                Rep (st.setS s (st.v p + cost) (some p) tr (st.Q.push st.val ⟨p0, st.g s - st.v p0, st.isTrue s⟩ (st.lazy s))) u s c := by
              intro e he h1 h2
              refine ⟨as, .inr (.inr (.inr ⟨sf, e, ?_, h1, h2⟩))⟩
              show _ ∈ upd st.lazy s _ s
              rw [upd_same, q.pushMem]; exact he
            have vs : st.val ⟨p0, st.g s - st.v p0, st.isTrue s⟩ = st.g s := gE
            rcases h with h | ⟨_, h | h | h | ⟨h, e, he, h'⟩⟩
            · rcases key pend' pend low cov u c ee h with h | ⟨rfl, h, h'⟩
              · exact .inl h
              · refine .inr ⟨as, .inr (.inr (.inl ⟨sf, ?_, ?_⟩))⟩
                · show upd st.par s _ s = _
                  rw [upd_same]
                · rcases h' with ⟨h', _⟩ | ⟨_, h'⟩
                  · rw [hs1] at h'; cases h'
                  · exact h'
            · exact .inr ⟨as, .inl h⟩
            · exact .inr (R4 _ (.inl rfl) (by rw [vs]; exact h.2) (.inl h.1))
            · have hh := h.2.1
              rw [hp0] at hh
              cases hh
              have := o.under s p0 as h.1 h.2.1 (by rw [h.2.2]; have := pos _ _ _ ee; omega)
              rw [h.2.2] at this
              exact .inr (R4 _ (.inl rfl) (by rw [vs]; omega) (.inr ⟨rfl, h.2.2⟩))
            · exact .inr (R4 e (.inr he) h'.1 h'.2)
          · intro _ e he
            rw [q.pushMem] at he
            rcases he with rfl | he
            · show _ ≤ st.v p0 + (st.g s - st.v p0)
              omega
            · have hf : st.isTrue s = false := by
                cases hti : st.isTrue s with
                | false => rfl
                | true => rw [sd.clear s as hti] at he; cases he
              have := o.ord s as hf e he
              omega
          · intro p' _ hp' hpos
            cases hp'
            have := low hs1 hpos
            omega
          · intro e he hf' hpos
            rw [q.pushMem] at he
            rcases he with rfl | he
            · have := o.under s p0 as hf' hp0 hpos
              show ((st.g s - st.v p0 : Nat) : Int) ≤ st.trueCost p0 s
              omega
            · exact o.elemUnder s as e he hf' hpos
      next hs =>
        have eq : st.setBest s p cost tr = (st.setS s (st.v p + cost) (some p) tr (if tr then [] else st.lazy s)).putInHeap s := by
          unfold setBest setS
          cases tr with
          | true => rfl
          | false =>
            have u1 : upd st.lazy s (st.lazy s) = st.lazy := by funext u; unfold upd; split <;> simp_all
            simp only [Bool.false_eq_true, if_false, u1]
        rw [eq]
        have le : ∀ e ∈ (if tr then [] else st.lazy s), e ∈ st.lazy s := by
          intro e he
          split at he
          · cases he
          · exact he
        refine (set_spec sd hi as ap hc ht hl lt1 lt2 (fun e he => sd.elem s as e (le e he)) (fun h => by rw [if_pos h])).imp ?_
        rintro st' ⟨a1, a2, a3, a4⟩
        refine ⟨a1, a2, a3, ?_⟩
        intro pend' pend o low cov
        apply a4.opt
        cases htr : tr with
        | true =>
          have := repT [] pend' pend htr o low cov
          rw [htr] at this
          refine opt_setS o (covO _ _ cov) ?_ ?_ ?_ ?_ ?_
          · simpa using this
          · intro h; cases h
          · simpa using q.nil _
          · intro _ h; cases h
          · intro e he; simp at he
        | false =>
          -- the old value was not better than the value of the last expansion
          have ge : st.v s ≤ st.g s := by
            by_contra c; exact hs ⟨htr, by omega⟩
          have hti : st.isTrue s = true := by
            cases hti : st.isTrue s with
            | true => rfl
            | false => have := (sd.untrue s as hti).1; omega
          have le0 := sd.clear s as hti
          rw [le0]
          refine opt_setS o (covO _ _ cov) ?_ ?_ (q.nil _) ?_ ?_
          · intro u c au vu ee h
            rcases h with h | ⟨_, h | h | h | ⟨h, e, he, h'⟩⟩
            · rcases key pend' pend low cov u c ee h with h | ⟨rfl, h, h'⟩
              · exact .inl h
              · refine .inr ⟨as, .inr (.inr (.inl ⟨?_, ?_, ?_⟩))⟩
                · show upd st.isTrue s _ s = false
                  rw [upd_same]
                · show upd st.par s _ s = _
                  rw [upd_same]
                · rcases h' with ⟨h', _⟩ | ⟨_, h'⟩
                  · rw [htr] at h'; cases h'
                  · exact h'
            · exact .inr ⟨as, .inl h⟩
            · exact .inr ⟨as, .inl (by show st.v s ≤ st.v u + c; omega)⟩
            · rw [hti] at h; exact absurd h.1 (by simp)
            · rw [hti] at h; cases h
          · intro _ e he; simp at he
          · intro p' _ hp' hpos
            cases hp'
            have := low htr hpos
            omega
          · intro e he; simp at he

end Sbpl.LazyARA
