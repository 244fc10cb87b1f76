import Verif.Model.RStar
import Verif.Spec.Graph
import Verif.Proofs.HeapOps
import Verif.Proofs.ARA
import Verif.Proofs.ARAPath
/-! # The low-level search of R*: invariant, extracted path -/

namespace Sbpl.RStar
open GraphSpec Heap

variable {G : Nat → List (Nat × Nat)} {s0 : Nat}

/-- a walk from `s0`, last state first, with the costs of its prefixes -/
def LabW (G : Nat → List (Nat × Nat)) (s0 : Nat) : List (Nat × Nat) → Prop
  | [] => False
  | [(s, n)] => s = s0 ∧ n = 0
  | (t, n) :: (s, m) :: W => (∃ c, (t, c) ∈ G s ∧ n = m + c) ∧ LabW G s0 ((s, m) :: W)

theorem labW_le : ∀ {W : List (Nat × Nat)} {t n : Nat}, LabW G s0 ((t, n) :: W) → ∀ x ∈ (t, n) :: W, x.2 ≤ n
  | [], t, n, _, x, hx => by simp at hx; subst hx; exact Nat.le_refl _
  | (s, m) :: W, t, n, h, x, hx => by
    obtain ⟨⟨c, _, e⟩, h⟩ := h
    rcases List.mem_cons.mp hx with rfl | hx
    · exact Nat.le_refl _
    · exact Nat.le_trans (labW_le h x hx) (by omega)

theorem labW_bound {C : Nat} (hC : ∀ s t c, (t, c) ∈ G s → c ≤ C) : ∀ {W : List (Nat × Nat)} {t n : Nat}, LabW G s0 ((t, n) :: W) → n ≤ C * W.length
  | [], t, n, h => by obtain ⟨_, h⟩ := h; omega
  | (s, m) :: W, t, n, h => by
    obtain ⟨⟨c, hc, e⟩, h⟩ := h
    have := labW_bound hC h
    have := hC _ _ _ hc
    simp only [List.length_cons, Nat.mul_succ]; omega

theorem labW_walk : ∀ {W : List (Nat × Nat)} {t n : Nat}, LabW G s0 ((t, n) :: W) → ∀ x ∈ (t, n) :: W, ∃ m, Walk G s0 x.1 m
  | [], t, n, h, x, hx => by
    simp at hx; subst hx
    obtain ⟨h, _⟩ := h
    subst h; exact ⟨0, .nil⟩
  | (s, m) :: W, t, n, h, x, hx => by
    obtain ⟨⟨c, hc, e⟩, h⟩ := h
    rcases List.mem_cons.mp hx with rfl | hx
    · obtain ⟨k, w⟩ := labW_walk h _ List.mem_cons_self
      exact ⟨_, w.snoc hc⟩
    · exact labW_walk h x hx

/-- invariant of the low-level search from `s0` -/
structure LOk (G : Nat → List (Nat × Nat)) (s0 : Nat) (ls : LS) : Prop where
  bp : BP ls.heap
  ord : Ordered ls.heap
  g0 : ls.g s0 = 0
  le : ∀ t, ls.g t ≤ INFINITECOST
  par0 : ls.par s0 = none
  par : ∀ t, t ≠ s0 → ls.g t < INFINITECOST → ∃ p, ls.par t = some p ∧ (t, ls.pc t) ∈ G p ∧ ls.g p + ls.pc t ≤ ls.g t
  lab : ∀ t, ls.g t < INFINITECOST → ∃ W, LabW G s0 ((t, ls.g t) :: W) ∧ (((t, ls.g t) :: W).map Prod.fst).Nodup ∧
    ∀ x ∈ (t, ls.g t) :: W, ls.g x.1 ≤ x.2
  goal : ls.lgoal ≠ s0
  inheap : ∀ t k, keyOf ls.heap t = some k → ls.g t < INFINITECOST

theorem LOk.heap_pop {ls : LS} (i : LOk G s0 ls) {s : Nat} {h : Heap CKey} (e : ls.heap.deleteMin = .ok (s, h)) :
    LOk G s0 { ls with heap := h } ∧ ls.g s < INFINITECOST := by
  obtain ⟨b, ko, _, o, _, k, hk, _, _⟩ := deleteMin_spec i.bp i.ord e
  refine ⟨⟨b, o, i.g0, i.le, i.par0, i.par, i.lab, i.goal, ?_⟩, i.inheap s k hk⟩
  intro t k' ht
  rw [ko] at ht
  by_cases q : t = s
  · subst q; simp at ht
  · rw [upd_other _ _ q] at ht; exact i.inheap t k' ht

theorem lpush_ok {p : LP} {ls ls' : LS} {t : Nat} (hb : BP ls.heap) (ho : Ordered ls.heap) (e : lpush p ls t = .ok ls') :
    BP ls'.heap ∧ Ordered ls'.heap ∧ ls'.g = ls.g ∧ ls'.par = ls.par ∧ ls'.pc = ls.pc ∧ ls'.lgoal = ls.lgoal ∧
      ∃ k, keyOf ls'.heap = upd (keyOf ls.heap) t (some k) := by
  unfold lpush at e
  split at e
  next h q =>
    cases e
    split at q
    · obtain ⟨b, k, _, o, _, _⟩ := insert_spec hb q
      exact ⟨b, o ho, rfl, rfl, rfl, rfl, _, k⟩
    · obtain ⟨b, k, _, o, _, _⟩ := update_spec hb ho q
      exact ⟨b, o, rfl, rfl, rfl, rfl, _, k⟩
  next => cases e

theorem lpush_err {p : LP} {ls : LS} {t : Nat} {x : RErr} (e : lpush p ls t = .error x) : x = .heap .full := by
  unfold lpush at e
  split at e
  · cases e
  next y q =>
    cases e
    split at q
    next h => rw [ARA.heap_insert_err (ARA.keyOf_none.mpr h) q]
    next h =>
      exfalso
      obtain ⟨h', r⟩ := (update_ok_iff ls.heap t (lkey p ls t)).mpr (fun hk => h (ARA.keyOf_none.mp hk))
      rw [r] at q; cases q

theorem lswap_same (p : LP) (ls : LS) (t : Nat) : (lswap p ls t).g = ls.g ∧ (lswap p ls t).par = ls.par ∧ (lswap p ls t).pc = ls.pc ∧
    (lswap p ls t).heap = ls.heap ∧ ((lswap p ls t).lgoal = ls.lgoal ∨ (lswap p ls t).lgoal = t ∧ p.env.equiv t ls.lgoal = true ∧ t ≠ ls.lgoal) := by
  unfold lswap
  split
  next h => exact ⟨rfl, rfl, rfl, rfl, .inr ⟨rfl, h.2.1, fun q => by rw [q] at h; omega⟩⟩
  next => exact ⟨rfl, rfl, rfl, rfl, .inl rfl⟩

theorem lrelax_ok {p : LP} (hpos : ∀ s t c, (t, c) ∈ G s → 1 ≤ c) {ls ls' : LS} {s t c : Nat} (i : LOk G s0 ls) (hs : ls.g s < INFINITECOST) (he : (t, c) ∈ G s)
    (e : lrelax p ls s t c = .ok ls') : LOk G s0 ls' ∧ ls'.g s < INFINITECOST ∧ (ls'.lgoal = ls.lgoal ∨ p.env.equiv ls'.lgoal ls.lgoal = true ∧ ls'.lgoal ≠ ls.lgoal) := by
  unfold lrelax at e
  split at e
  next lt =>
    split at e
    · cases e
    next ls1 h1 =>
      cases e
      have hc := hpos _ _ _ he
      have hts : t ≠ s := by rintro rfl; omega
      have ht0 : t ≠ s0 := by rintro rfl; rw [i.g0] at lt; omega
      obtain ⟨b, o, e1, e2, e3, e4, k, e5⟩ := lpush_ok (ls := { ls with par := upd ls.par t (some s), pc := upd ls.pc t c, g := upd ls.g t (ls.g s + c) }) i.bp i.ord h1
      obtain ⟨w1, w2, w3, w4, w5⟩ := lswap_same p ls1 t
      have hle := i.le t
      have gle : ∀ v, upd ls.g t (ls.g s + c) v ≤ ls.g v := by
        intro v
        by_cases q : v = t
        · subst q; simp; omega
        · rw [upd_other _ _ q]
      refine ⟨⟨by rw [w4]; exact b, by rw [w4]; exact o, ?_, ?_, ?_, ?_, ?_, ?_, ?_⟩, ?_, ?_⟩
      · rw [w1, e1]; show upd ls.g t (ls.g s + c) s0 = 0
        rw [upd_other _ _ (Ne.symm ht0)]; exact i.g0
      · intro v; rw [w1, e1]; exact Nat.le_trans (gle v) (i.le v)
      · rw [w2, e2]; show upd ls.par t (some s) s0 = none
        rw [upd_other _ _ (Ne.symm ht0)]; exact i.par0
      · intro v hv hg
        rw [w1, e1] at hg ⊢; rw [w2, e2, w3, e3]
        show ∃ q, upd ls.par t (some s) v = some q ∧ (v, upd ls.pc t c v) ∈ G q ∧ upd ls.g t (ls.g s + c) q + upd ls.pc t c v ≤ upd ls.g t (ls.g s + c) v
        by_cases q : v = t
        · subst q
          refine ⟨s, by simp, by simpa using he, ?_⟩
          rw [upd_other _ _ (Ne.symm hts)]; simp
        · have hg : upd ls.g t (ls.g s + c) v < INFINITECOST := hg
          rw [upd_other _ _ q] at hg
          obtain ⟨x, h1, h2, h3⟩ := i.par v hv hg
          refine ⟨x, by rw [upd_other _ _ q]; exact h1, by rw [upd_other _ _ q]; exact h2, ?_⟩
          rw [upd_other _ _ q, upd_other ls.g _ q]
          have := gle x
          omega
      · intro v hg
        rw [w1, e1] at hg ⊢
        show ∃ W, LabW G s0 ((v, upd ls.g t (ls.g s + c) v) :: W) ∧ (((v, upd ls.g t (ls.g s + c) v) :: W).map Prod.fst).Nodup ∧
          ∀ x ∈ (v, upd ls.g t (ls.g s + c) v) :: W, upd ls.g t (ls.g s + c) x.1 ≤ x.2
        have hg : upd ls.g t (ls.g s + c) v < INFINITECOST := hg
        by_cases q : v = t
        · subst q
          simp only [upd_same]
          obtain ⟨W, h1, h2, h3⟩ := i.lab s hs
          refine ⟨(s, ls.g s) :: W, ⟨⟨c, he, rfl⟩, h1⟩, ?_, ?_⟩
          · rw [List.map_cons, List.nodup_cons]
            refine ⟨?_, h2⟩
            intro hm
            obtain ⟨x, hx, ex⟩ := List.mem_map.mp hm
            have a1 := h3 x hx
            have a2 := labW_le h1 x hx
            simp only at ex
            rw [ex] at a1
            omega
          · intro x hx
            rcases List.mem_cons.mp hx with rfl | hx
            · simp
            · exact Nat.le_trans (gle _) (h3 x hx)
        · rw [upd_other _ _ q] at hg ⊢
          obtain ⟨W, h1, h2, h3⟩ := i.lab v hg
          exact ⟨W, h1, h2, fun x hx => Nat.le_trans (gle _) (h3 x hx)⟩
      · rcases w5 with h | h
        · rw [h, e4]; exact i.goal
        · rw [h.1]; exact ht0
      · intro v k' hk
        rw [w4, e5] at hk
        rw [w1, e1]
        show upd ls.g t (ls.g s + c) v < INFINITECOST
        by_cases q : v = t
        · subst q; simp; omega
        · rw [upd_other _ _ q] at hk ⊢
          exact i.inheap v k' hk
      · rw [w1, e1]
        show upd ls.g t (ls.g s + c) s < INFINITECOST
        rw [upd_other _ _ (Ne.symm hts)]; exact hs
      · rcases w5 with h | h
        · exact .inl (h.trans e4)
        · right
          rw [h.1]
          exact ⟨e4 ▸ h.2.1, e4 ▸ h.2.2⟩
  next => cases e; exact ⟨i, hs, .inl rfl⟩

/-- the current target is the requested one or an equivalent state -/
def Tgt (p : LP) (ls : LS) : Prop := ls.lgoal = p.tgt ∨ (∃ a b, a ≠ b ∧ p.env.equiv a b = true)

theorem lrelaxAll_ok {p : LP} (hpos : ∀ s t c, (t, c) ∈ G s → 1 ≤ c) {s : Nat} : ∀ {es : List (Nat × Nat)} {ls ls' : LS}, LOk G s0 ls → ls.g s < INFINITECOST → (∀ e ∈ es, e ∈ G s) →
    lrelaxAll p s es ls = .ok ls' → Tgt p ls → LOk G s0 ls' ∧ Tgt p ls'
  | [], ls, ls', i, _, _, e, tg => by cases e; exact ⟨i, tg⟩
  | (t, c) :: es, ls, ls', i, hs, hes, e, tg => by
    unfold lrelaxAll at e
    split at e
    · cases e
    next ls1 h1 =>
      obtain ⟨i1, hs1, hg⟩ := lrelax_ok hpos i hs (hes _ List.mem_cons_self) h1
      refine lrelaxAll_ok hpos i1 hs1 (fun x hx => hes x (List.mem_cons_of_mem _ hx)) e ?_
      rcases hg with h | h
      · unfold Tgt; rw [h]; exact tg
      · exact .inr ⟨_, _, h.2, h.1⟩

theorem lrelax_err {p : LP} {ls : LS} {s t c : Nat} {x : RErr} (e : lrelax p ls s t c = .error x) : x = .heap .full := by
  unfold lrelax at e
  split at e
  · split at e
    next h => cases e; exact lpush_err h
    next => cases e
  · cases e

theorem lrelaxAll_err {p : LP} {s : Nat} {x : RErr} : ∀ {es : List (Nat × Nat)} {ls : LS}, lrelaxAll p s es ls = .error x → x = .heap .full
  | [], ls, e => by cases e
  | (t, c) :: es, ls, e => by
    unfold lrelaxAll at e
    split at e
    next h => cases e; exact lrelax_err h
    next => exact lrelaxAll_err e

theorem lloop_ok {p : LP} {clk : Nat → Bool} (hG : G = nbr p.env p.fwd) (hpos : ∀ s t c, (t, c) ∈ G s → 1 ≤ c) : ∀ {fuel : Nat} {ls ls' : LS} {ex ex' tk tk' : Nat},
    LOk G s0 ls → Tgt p ls → lloop p clk fuel ls ex tk = .ok (ls', ex', tk') → LOk G s0 ls' ∧ Tgt p ls'
  | 0, _, _, _, _, _, _, _, _, e => by cases e
  | fuel + 1, ls, ls', ex, ex', tk, tk', i, tg, e => by
    unfold lloop at e
    dsimp only at e
    split at e
    · split at e
      · cases e
      next s h hd =>
        obtain ⟨i1, hs⟩ := i.heap_pop hd
        split at e
        · cases e
        next ls1 hr =>
          obtain ⟨i2, t2⟩ := lrelaxAll_ok hpos i1 hs (fun e he => by rw [hG]; exact he) hr tg
          split at e
          · split at e
            · cases e; exact ⟨i2, t2⟩
            · exact lloop_ok hG hpos i2 t2 e
          · exact lloop_ok hG hpos i2 t2 e
    · cases e; exact ⟨i, tg⟩

theorem lloop_err {p : LP} {clk : Nat → Bool} : ∀ {fuel : Nat} {ls : LS} {ex tk : Nat} {x : RErr}, (∀ t, ls.g t ≤ INFINITECOST) →
    lloop p clk fuel ls ex tk = .error x → x = .heap .full ∨ x = .noTermination
  | 0, _, _, _, _, _, e => by cases e; exact .inr rfl
  | fuel + 1, ls, ex, tk, x, hle, e => by
    unfold lloop at e
    dsimp only at e
    split at e
    next cnd =>
      split at e
      next y hd =>
        exfalso
        unfold Heap.deleteMin at hd
        split at hd
        next z =>
          have h1 := cnd.1
          simp only [Heap.getMinKey, z, if_true, CKey.infinity] at h1
          have := hle ls.lgoal
          unfold INFINITECOST at this
          omega
        next => cases hd
      next s h hd =>
        split at e
        next hr => cases e; exact .inl (lrelaxAll_err hr)
        next ls1 hr =>
          have hle1 : ∀ t, ls1.g t ≤ INFINITECOST := by
            have key : ∀ {es : List (Nat × Nat)} {a b : LS}, (∀ t, a.g t ≤ INFINITECOST) → lrelaxAll p s es a = .ok b → ∀ t, b.g t ≤ INFINITECOST := by
              intro es
              induction es with
              | nil => intro a b ha hb; cases hb; exact ha
              | cons d es ih =>
                obtain ⟨t, c⟩ := d
                intro a b ha hb
                unfold lrelaxAll at hb
                split at hb
                · cases hb
                next a1 h1 =>
                  refine ih ?_ hb
                  unfold lrelax at h1
                  split at h1
                  next lt =>
                    split at h1
                    · cases h1
                    next a2 h2 =>
                      cases h1
                      rw [(lswap_same p a2 t).1]
                      unfold lpush at h2
                      split at h2
                      · cases h2
                        intro v
                        show upd a.g t (a.g s + c) v ≤ _
                        by_cases q : v = t
                        · subst q; simp; have := ha v; omega
                        · rw [upd_other _ _ q]; exact ha v
                      · cases h2
                  next => cases h1; exact ha
            exact key (a := { ls with heap := h }) hle hr
          split at e
          · split at e
            · cases e
            · exact lloop_err hle1 e
          · exact lloop_err hle1 e
    · cases e

theorem ltrace_sound {ls : LS} (hpos : ∀ s t c, (t, c) ∈ G s → 1 ≤ c) (i : LOk G s0 ls) : ∀ {fuel x n : Nat} {l : List Nat}, ls.g x < INFINITECOST →
    ltrace s0 ls fuel x = .ok (l, n) → (x ≠ s0 → l ≠ []) ∧ PathCost G (s0 :: l.reverse) n ∧ (s0 :: l.reverse).getLast? = some x ∧ n ≤ ls.g x ∧ l.Nodup ∧ s0 ∉ l ∧ ∀ y ∈ l, ls.g y ≤ ls.g x
  | 0, _, _, _, _, e => by cases e
  | fuel + 1, x, n, l, hx, e => by
    by_cases h0 : x = s0
    · subst h0
      unfold ltrace at e
      rw [i.par0] at e
      cases e
      exact ⟨by simp, .single _, by simp, Nat.zero_le _, by simp, by simp, by simp⟩
    · obtain ⟨q, h1, h2, h3⟩ := i.par x h0 hx
      unfold ltrace at e
      rw [h1] at e
      simp only [if_neg h0] at e
      split at e
      · cases e
      next l' n' hr =>
        cases e
        have hc := hpos _ _ _ h2
        obtain ⟨_, a2, a3, a4, a5, a6, a7⟩ := ltrace_sound hpos i (by omega) hr
        refine ⟨by simp, ?_, by rw [List.reverse_cons, ← List.cons_append, List.getLast?_append]; rfl, by omega, ?_, ?_, ?_⟩
        · have := ARA.pathCost_snoc a2 a3 h2
          rw [List.reverse_cons, Nat.add_comm]
          exact this
        · rw [List.nodup_cons]
          refine ⟨fun hm => ?_, a5⟩
          have := a7 x hm; omega
        · simp only [List.mem_cons, not_or]; exact ⟨Ne.symm h0, a6⟩
        · intro y hy
          rcases List.mem_cons.mp hy with rfl | hy
          · exact Nat.le_refl _
          · have := a7 y hy; omega

theorem ltrace_total {ls : LS} (hpos : ∀ s t c, (t, c) ∈ G s → 1 ≤ c) (i : LOk G s0 ls) : ∀ {fuel x : Nat} {e : RErr}, ls.g x < INFINITECOST → ls.g x < fuel →
    ltrace s0 ls fuel x ≠ .error e
  | 0, _, _, _, h => by omega
  | fuel + 1, x, y, hx, h => by
    intro e
    unfold ltrace at e
    split at e
    · cases e
    next q hq =>
      split at e
      · cases e
      next h0 =>
        obtain ⟨q', h1, h2, h3⟩ := i.par x h0 hx
        rw [hq] at h1; cases h1
        have hc := hpos _ _ _ h2
        split at e
        next hr => exact ltrace_total hpos i (by omega) (by omega) hr
        next => cases e

theorem linit_ok {p : LP} (hne : p.tgt ≠ p.src) {h : Heap CKey} (e : (linit p.src p.tgt).heap.insert p.src (lkey p (linit p.src p.tgt) p.src) = .ok h) :
    LOk G p.src { linit p.src p.tgt with heap := h } ∧ Tgt p { linit p.src p.tgt with heap := h } := by
  have hb : BP (linit p.src p.tgt).heap := by
    constructor
    · intro i h1 h2; simp [linit, Heap.mk0] at h2; omega
    · intro s h; simp [linit, Heap.mk0] at h
  have ho : Ordered (linit p.src p.tgt).heap := by
    intro i h1 h2; simp [linit, Heap.mk0] at h2; omega
  obtain ⟨b, k, _, o, _, _⟩ := insert_spec hb e
  have g1 : ∀ t, t ≠ p.src → (linit p.src p.tgt).g t = INFINITECOST := by
    intro t q; simp [linit, upd, q]
  have g2 : (linit p.src p.tgt).g p.src = 0 := by simp [linit]
  refine ⟨⟨b, o ho, by simp [linit], ?_, rfl, ?_, ?_, hne, ?_⟩, .inl rfl⟩
  · intro t
    by_cases q : t = p.src
    · subst q; rw [show ({ linit p.src p.tgt with heap := h } : LS).g p.src = 0 from g2]; exact Nat.zero_le _
    · exact Nat.le_of_eq (g1 t q)
  · intro t q lt; exact absurd (g1 t q) (Nat.ne_of_lt lt)
  · intro t lt
    by_cases q : t = p.src
    · subst q
      refine ⟨[], ⟨rfl, g2⟩, by simp, ?_⟩
      intro x hx
      simp at hx; subst hx; exact Nat.le_refl _
    · exact absurd (g1 t q) (Nat.ne_of_lt lt)
  · intro t k' hk
    have hk : keyOf h t = some k' := hk
    rw [k] at hk
    by_cases q : t = p.src
    · subst q; show (linit p.src p.tgt).g p.src < _; rw [g2]; decide
    · rw [upd_other _ _ q] at hk
      exfalso
      revert hk
      simp [linit, Heap.mk0, keyOf]

/-- what ComputeLocalPath guarantees for `tgt ≠ src` -/
structure LResOk (G : Nat → List (Nat × Nat)) (p : LP) (r : LRes) : Prop where
  ne : r.newGoal ≠ p.src
  tgt : r.newGoal = p.tgt ∨ (∃ a b, a ≠ b ∧ p.env.equiv a b = true)
  res : (r.path = [] ∧ r.cost = INFINITECOST) ∨
    (∃ l, r.path = (if p.fwd then l.reverse else l) ∧ l ≠ [] ∧ PathCost G (p.src :: l.reverse) r.cost ∧ (p.src :: l.reverse).getLast? = some r.newGoal ∧
      r.cost ≤ r.clow ∧ r.clow < INFINITECOST ∧ 1 ≤ r.clow ∧ p.src ∉ l ∧ l.Nodup ∧
      ∃ W, LabW G p.src ((r.newGoal, r.clow) :: W) ∧ (((r.newGoal, r.clow) :: W).map Prod.fst).Nodup)

theorem localPath_ok {p : LP} {clk : Nat → Bool} (hG : G = nbr p.env p.fwd) (hpos : ∀ s t c, (t, c) ∈ G s → 1 ≤ c) {fuel tk : Nat} {r : LRes} (hne : p.tgt ≠ p.src)
    (e : localPath p clk fuel tk = .ok r) : LResOk G p r := by
  unfold localPath at e
  dsimp only at e
  split at e
  · cases e
  next h hi =>
    obtain ⟨i, tg⟩ := linit_ok (G := G) hne hi
    split at e
    · cases e
    next ls ex tk1 hl =>
      obtain ⟨i1, tg1⟩ := lloop_ok hG hpos i tg hl
      split at e
      next lt =>
        split at e
        · cases e
        next l n ht =>
          cases e
          obtain ⟨a1, a2, a3, a4, a5, a6, a7⟩ := ltrace_sound hpos i1 lt ht
          refine ⟨i1.goal, tg1, .inr ⟨l, rfl, a1 i1.goal, a2, a3, a4, lt, ?_, a6, a5, ?_⟩⟩
          · obtain ⟨q, h1, h2, h3⟩ := i1.par _ i1.goal lt
            have := hpos _ _ _ h2
            show 1 ≤ ls.g ls.lgoal
            omega
          · obtain ⟨W, h1, h2, _⟩ := i1.lab _ lt
            exact ⟨W, h1, h2⟩
      next => cases e; exact ⟨i1.goal, tg1, .inl ⟨rfl, rfl⟩⟩

theorem localPath_err {p : LP} {clk : Nat → Bool} (hG : G = nbr p.env p.fwd) (hpos : ∀ s t c, (t, c) ∈ G s → 1 ≤ c) {fuel tk : Nat} {x : RErr} (hne : p.tgt ≠ p.src)
    (e : localPath p clk fuel tk = .error x) : x = .heap .full ∨ x = .noTermination := by
  unfold localPath at e
  dsimp only at e
  split at e
  next y hi =>
    cases e
    left
    rw [ARA.heap_insert_err _ hi]
    simp [linit, Heap.mk0, keyOf]
  next h hi =>
    obtain ⟨i, tg⟩ := linit_ok (G := G) hne hi
    split at e
    next hl => cases e; exact lloop_err i.le hl
    next ls ex tk1 hl =>
      obtain ⟨i1, tg1⟩ := lloop_ok hG hpos i tg hl
      split at e
      next lt =>
        split at e
        next ht => exact absurd ht (ltrace_total hpos i1 lt (by omega))
        next => cases e
      next => cases e

end Sbpl.RStar
