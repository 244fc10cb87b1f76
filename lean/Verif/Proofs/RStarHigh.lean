import Verif.Proofs.RStarLocal
/-! # The high-level search of R*: invariant for memory safety and soundness of the actions -/

namespace Sbpl.RStar
open GraphSpec Heap

variable {G : Nat → List (Nat × Nat)} {s0 : Nat}

/-- what the exceptions of the searches may be -/
def Post {α : Type} (r : Except RErr α) (P : α → Prop) : Prop :=
  match r with
  | .ok a => P a
  | .error e => e = .heap .full ∨ e = .noTermination

/-- the action carries no path, or a path of its cost from its source to its target -/
def SegOk (G : Nat → List (Nat × Nat)) (fwd : Bool) (x : RAct) : Prop :=
  (x.path = [] ∧ x.cost = INFINITECOST) ∨
    (∃ l, x.path = (if fwd then l.reverse else l) ∧ l ≠ [] ∧ PathCost G (x.src :: l.reverse) x.cost ∧ (x.src :: l.reverse).getLast? = some x.tgt ∧
      1 ≤ x.clow ∧ x.cost ≤ x.clow ∧ x.src ∉ l)

/-- the information of the state belongs to the current call -/
def Cur (st : RStar) (s : Nat) : Prop := st.callA s = st.call

def Good (G : Nat → List (Nat × Nat)) (s0 : Nat) (st : RStar) (s : Nat) (x : RAct) : Prop :=
  x.tgt = s ∧ Cur st x.src ∧ (x.src = s0 ∨ st.best x.src ≠ none) ∧ x.src ≠ s ∧ SegOk G st.fwd x

structure HOk (G : Nat → List (Nat × Nat)) (s0 : Nat) (st : RStar) : Prop where
  hG : nbr st.env st.fwd = G
  cur0 : Cur st s0
  leC : ∀ s, st.callA s ≤ st.call
  fresh : ∀ a, st.nacts ≤ a → st.acts a = none
  pred : ∀ s a, Cur st s → a ∈ st.predA s → ∃ x, st.acts a = some x ∧ Good G s0 st s x
  best : ∀ s a, Cur st s → st.best s = some a → a ∈ st.predA s
  gnone : ∀ s, Cur st s → s ≠ s0 → st.best s = none → st.g s = INFINITECOST
  bp : BP st.heap
  ord : Ordered st.heap
  inheap : ∀ t k, keyOf st.heap t = some k → Cur st t ∧ (t = s0 ∨ st.best t ≠ none)

/-- what every operation of the search leaves alone -/
def Fr (st st' : RStar) : Prop :=
  st'.call = st.call ∧ st'.env = st.env ∧ st'.fwd = st.fwd ∧ st'.start = st.start ∧ st'.goal = st.goal ∧ ∀ t, st.callA t = st.call → st'.callA t = st'.call

theorem Fr.call {a b : RStar} (h : Fr a b) : b.call = a.call := h.1
theorem Fr.env {a b : RStar} (h : Fr a b) : b.env = a.env := h.2.1
theorem Fr.fwd {a b : RStar} (h : Fr a b) : b.fwd = a.fwd := h.2.2.1
theorem Fr.start {a b : RStar} (h : Fr a b) : b.start = a.start := h.2.2.2.1
theorem Fr.goal {a b : RStar} (h : Fr a b) : b.goal = a.goal := h.2.2.2.2.1
theorem Fr.cur {a b : RStar} (h : Fr a b) : ∀ t, Cur a t → Cur b t := h.2.2.2.2.2

theorem Fr.refl (st : RStar) : Fr st st := ⟨rfl, rfl, rfl, rfl, rfl, fun _ h => h⟩
theorem Fr.trans {a b c : RStar} (h : Fr a b) (k : Fr b c) : Fr a c :=
  ⟨k.call.trans h.call, k.env.trans h.env, k.fwd.trans h.fwd, k.start.trans h.start, k.goal.trans h.goal, fun t q => k.cur t (h.cur t q)⟩

theorem Post.mono {α : Type} {r : Except RErr α} {P Q : α → Prop} (h : Post r P) (k : ∀ a, P a → Q a) : Post r Q := by
  unfold Post at h ⊢
  split at h
  · exact k _ h
  · exact h

theorem HOk.bestOk {st : RStar} (i : HOk G s0 st) {s a : Nat} (c : Cur st s) (h : st.best s = some a) : ∃ x, st.acts a = some x ∧ Good G s0 st s x :=
  i.pred s a c (i.best s a c h)

theorem reinit_heap {st : RStar} (i : HOk G s0 st) {s : Nat} (h : ¬ Cur st s) : ({ st.heap with idx := upd st.heap.idx s 0 } : Heap CKey) = st.heap := by
  have : st.heap.idx s = 0 := by
    rw [← ARA.keyOf_none]
    cases q : keyOf st.heap s with
    | none => rfl
    | some k => exact absurd (i.inheap s k q).1 h
  have e : upd st.heap.idx s 0 = st.heap.idx := by
    funext t; simp only [upd]; split
    next q => rw [q, this]
    next => rfl
  rw [e]

/-- what `touch` preserves -/
structure TouchFrame (st st' : RStar) (s : Nat) : Prop where
  heap : st'.heap = st.heap
  call : st'.call = st.call
  env : st'.env = st.env
  fwd : st'.fwd = st.fwd
  eps : st'.eps = st.eps
  nacts : st'.nacts = st.nacts
  cur : Cur st' s
  callA : ∀ t, Cur st t → Cur st' t
  callA' : ∀ t, t ≠ s → st'.callA t = st.callA t
  g : ∀ t, Cur st t → st'.g t = st.g t
  best : ∀ t, Cur st t → st'.best t = st.best t
  predA : ∀ t, Cur st t → st'.predA t = st.predA t
  closed : ∀ t, Cur st t → st'.closed t = st.closed t
  acts : ∀ a x, st.acts a = some x → Cur st x.src → st'.acts a = some x
  acts' : ∀ a x, st'.acts a = some x → st.acts a = some x
  new : ¬ Cur st s → st'.g s = INFINITECOST ∧ st'.best s = none ∧ st'.predA s = [] ∧ st'.closed s = false

theorem touch_frame {st : RStar} (i : HOk G s0 st) (s : Nat) : TouchFrame st (st.touch s) s := by
  unfold touch
  split
  next h =>
    have hne : ∀ t, Cur st t → t ≠ s := fun t c q => h (q ▸ c)
    refine ⟨reinit_heap i h, rfl, rfl, rfl, rfl, rfl, ?_, ?_, ?_, ?_, ?_, ?_, ?_, ?_, ?_, ?_⟩
    · show upd st.callA s st.call s = st.call; simp
    · intro t c; show upd st.callA s st.call t = st.call; rw [upd_other _ _ (hne t c)]; exact c
    · intro t c; exact upd_other _ _ c
    · intro t c; exact upd_other _ _ (hne t c)
    · intro t c; exact upd_other _ _ (hne t c)
    · intro t c; exact upd_other _ _ (hne t c)
    · intro t c; exact upd_other _ _ (hne t c)
    · intro a x hx c
      show (match st.acts a with | some x => if x.src = s then none else some x | none => none) = some x
      rw [hx]; exact if_neg (hne _ c)
    · intro a x hx
      have hx : (match st.acts a with | some x => if x.src = s then none else some x | none => none) = some x := hx
      split at hx
      next y hy => split at hx <;> cases hx; exact hy
      next => cases hx
    · intro _; exact ⟨upd_same _ _ _, upd_same _ _ _, upd_same _ _ _, upd_same _ _ _⟩
  next h =>
    have h : Cur st s := by unfold Cur; omega
    exact ⟨rfl, rfl, rfl, rfl, rfl, rfl, h, fun _ c => c, fun _ _ => rfl, fun _ _ => rfl, fun _ _ => rfl, fun _ _ => rfl, fun _ _ => rfl,
      fun _ _ hx _ => hx, fun _ _ hx => hx, fun q => absurd h q⟩

theorem TouchFrame.cur_or {st st' : RStar} {s t : Nat} (f : TouchFrame st st' s) (h : Cur st' t) : Cur st t ∨ t = s ∧ ¬ Cur st s := by
  by_cases q : Cur st t
  · exact .inl q
  · right
    by_cases e : t = s
    · exact ⟨e, e ▸ q⟩
    · exact absurd (by unfold Cur at h ⊢; rw [f.callA' t e, f.call] at h; exact h) q

theorem touch_fr {st : RStar} (i : HOk G s0 st) (s : Nat) : Fr st (st.touch s) :=
  ⟨(touch_frame i s).call, (touch_frame i s).env, (touch_frame i s).fwd, by unfold touch; split <;> rfl, by unfold touch; split <;> rfl, (touch_frame i s).callA⟩

theorem touch_ok {st : RStar} (i : HOk G s0 st) (s : Nat) : HOk G s0 (st.touch s) := by
  have f := touch_frame i s
  refine ⟨by rw [f.env, f.fwd]; exact i.hG, f.callA _ i.cur0, ?_, ?_, ?_, ?_, ?_, by rw [f.heap]; exact i.bp, by rw [f.heap]; exact i.ord, ?_⟩
  · intro t
    by_cases q : t = s
    · subst q; exact Nat.le_of_eq f.cur
    · rw [f.callA' t q, f.call]; exact i.leC t
  · intro a ha
    rw [f.nacts] at ha
    cases q : (st.touch s).acts a with
    | none => rfl
    | some x => have := f.acts' a x q; rw [i.fresh a ha] at this; cases this
  · intro t a c ha
    rcases f.cur_or c with h | ⟨rfl, h⟩
    · rw [f.predA t h] at ha
      obtain ⟨x, h1, h2, h3, h4, h5, h6⟩ := i.pred t a h ha
      exact ⟨x, f.acts a x h1 h3, h2, f.callA _ h3, by rw [f.best _ h3]; exact h4, h5, by rw [f.fwd]; exact h6⟩
    · rw [(f.new h).2.2.1] at ha; cases ha
  · intro t a c ha
    rcases f.cur_or c with h | ⟨rfl, h⟩
    · rw [f.predA t h]; rw [f.best t h] at ha; exact i.best t a h ha
    · rw [(f.new h).2.1] at ha; cases ha
  · intro t c hn ha
    rcases f.cur_or c with h | ⟨rfl, h⟩
    · rw [f.g t h]; rw [f.best t h] at ha; exact i.gnone t h hn ha
    · exact (f.new h).1
  · intro t k hk
    rw [f.heap] at hk
    obtain ⟨h1, h2⟩ := i.inheap t k hk
    exact ⟨f.callA t h1, by rw [f.best t h1]; exact h2⟩

theorem HOk.updAct {st : RStar} (i : HOk G s0 st) {a : Nat} {x x1 : RAct} {n : Nat} (hx : st.acts a = some x) (e1 : x1.src = x.src) (e2 : x1.tgt = x.tgt)
    (hs : SegOk G st.fwd x1) : HOk G s0 { st with tk := n, acts := upd st.acts a (some x1) } := by
  refine ⟨i.hG, i.cur0, i.leC, ?_, ?_, i.best, i.gnone, i.bp, i.ord, i.inheap⟩
  · intro b hb
    show upd st.acts a (some x1) b = none
    have hb : st.nacts ≤ b := hb
    by_cases q : b = a
    · subst q; rw [i.fresh b hb] at hx; cases hx
    · rw [upd_other _ _ q]; exact i.fresh b hb
  · intro s b c hb
    obtain ⟨y, h1, h2, h3, h4, h5, h6⟩ := i.pred s b c hb
    by_cases q : b = a
    · subst q
      rw [hx] at h1; cases h1
      exact ⟨x1, upd_same _ _ _, e2.trans h2, by rw [e1]; exact h3, by rw [e1]; exact h4, by rw [e1]; exact h5, hs⟩
    · exact ⟨y, by show upd st.acts a (some x1) b = _; rw [upd_other _ _ q]; exact h1, h2, h3, h4, h5, h6⟩

/-- a new action -/
def addAct (st : RStar) (x : RAct) : RStar :=
  { st with acts := upd st.acts st.nacts (some x), nacts := st.nacts + 1, predA := upd st.predA x.tgt (st.predA x.tgt ++ [st.nacts]) }

theorem HOk.addAct {st : RStar} (i : HOk G s0 st) {x : RAct} (h1 : Cur st x.src) (h2 : x.src = s0 ∨ st.best x.src ≠ none) (h4 : x.src ≠ x.tgt)
    (hs : SegOk G st.fwd x) : HOk G s0 (addAct st x) := by
  refine ⟨i.hG, i.cur0, i.leC, ?_, ?_, ?_, i.gnone, i.bp, i.ord, i.inheap⟩
  · intro b hb
    have hb : st.nacts + 1 ≤ b := hb
    show upd st.acts st.nacts (some x) b = none
    rw [upd_other _ _ (by omega)]; exact i.fresh b (by omega)
  · intro s b c hb
    have hb : b ∈ upd st.predA x.tgt (st.predA x.tgt ++ [st.nacts]) s := hb
    have old : b ∈ st.predA s → ∃ y, (RStar.addAct st x).acts b = some y ∧ Good G s0 (RStar.addAct st x) s y := by
      intro hb
      obtain ⟨y, q1, q2⟩ := i.pred s b c hb
      refine ⟨y, ?_, q2⟩
      show upd st.acts st.nacts (some x) b = _
      have : b ≠ st.nacts := by rintro rfl; rw [i.fresh _ (Nat.le_refl _)] at q1; cases q1
      rw [upd_other _ _ this]; exact q1
    by_cases q : s = x.tgt
    · subst q
      rw [upd_same, List.mem_append] at hb
      rcases hb with hb | hb
      · exact old hb
      · simp at hb; subst hb
        exact ⟨x, upd_same _ _ _, rfl, h1, h2, h4, hs⟩
    · rw [upd_other _ _ q] at hb; exact old hb
  · intro s a c ha
    show a ∈ upd st.predA x.tgt (st.predA x.tgt ++ [st.nacts]) s
    have := i.best s a c ha
    by_cases q : s = x.tgt
    · subst q; rw [upd_same, List.mem_append]; exact .inl this
    · rw [upd_other _ _ q]; exact this

theorem keyFor_ok {st : RStar} (i : HOk G s0 st) {a b s : Nat} (c : Cur st s) : ∃ k, st.keyFor a b s = .ok k := by
  unfold keyFor
  dsimp only
  split
  · exact ⟨_, rfl⟩
  · split
    · exact ⟨_, rfl⟩
    next q =>
      obtain ⟨x, hx, _⟩ := i.bestOk c q
      simp only [deref, hx]
      split <;> exact ⟨_, rfl⟩

/-- SetBestPredecessor -/
theorem setBest_post {st : RStar} (i : HOk G s0 st) {a s p z gl : Nat} {x : RAct} (c : Cur st s) (ha : a ∈ st.predA s) (hx : st.acts a = some x) :
    Post (st.setBest z gl s p a) (fun st' => HOk G s0 st' ∧ ∃ h k, st' = { st with best := upd st.best s (some a), g := upd st.g s (st.g p + x.clow), heap := h } ∧
      keyOf h = upd (keyOf st.heap) s (some k)) := by
  have j : HOk G s0 { st with best := upd st.best s (some a), g := upd st.g s (st.g p + x.clow) } := by
    refine ⟨i.hG, i.cur0, i.leC, i.fresh, ?_, ?_, ?_, i.bp, i.ord, ?_⟩
    · intro t b ct hb
      obtain ⟨y, h1, h2, h3, h4, h5, h6⟩ := i.pred t b ct hb
      refine ⟨y, h1, h2, h3, ?_, h5, h6⟩
      rcases h4 with h | h
      · exact .inl h
      · right
        show upd st.best s (some a) y.src ≠ none
        by_cases q : y.src = s
        · rw [q]; simp
        · rw [upd_other _ _ q]; exact h
    · intro t b ct hb
      have hb : upd st.best s (some a) t = some b := hb
      by_cases q : t = s
      · subst q; simp at hb; subst hb; exact ha
      · rw [upd_other _ _ q] at hb; exact i.best t b ct hb
    · intro t ct hn hb
      have hb : upd st.best s (some a) t = none := hb
      show upd st.g s (st.g p + x.clow) t = _
      by_cases q : t = s
      · subst q; simp at hb
      · rw [upd_other _ _ q] at hb ⊢; exact i.gnone t ct hn hb
    · intro t k hk
      obtain ⟨h1, h2⟩ := i.inheap t k hk
      refine ⟨h1, ?_⟩
      rcases h2 with h | h
      · exact .inl h
      · right
        show upd st.best s (some a) t ≠ none
        by_cases q : t = s
        · rw [q]; simp
        · rw [upd_other _ _ q]; exact h
  unfold setBest
  simp only [deref, hx]
  unfold push
  obtain ⟨k, hk⟩ := keyFor_ok j (a := z) (b := gl) (s := s) c
  rw [hk]
  dsimp only
  have fin : ∀ h : Heap CKey, BP h → Ordered h → keyOf h = upd (keyOf st.heap) s (some k) →
      HOk G s0 { st with best := upd st.best s (some a), g := upd st.g s (st.g p + x.clow), heap := h } := by
    intro h b o e
    refine ⟨j.hG, j.cur0, j.leC, j.fresh, j.pred, j.best, j.gnone, b, o, ?_⟩
    intro t k' hk'
    have hk' : keyOf h t = some k' := hk'
    rw [e] at hk'
    by_cases q : t = s
    · subst q
      exact ⟨c, .inr (by show upd st.best t (some a) t ≠ none; simp)⟩
    · rw [upd_other _ _ q] at hk'
      exact j.inheap t k' hk'
  split
  next h q =>
    split at q
    · obtain ⟨b, e, _, o, _, _⟩ := insert_spec i.bp q
      exact ⟨fin h b (o i.ord) e, h, k, rfl, e⟩
    · obtain ⟨b, e, _, o, _, _⟩ := update_spec i.bp i.ord q
      exact ⟨fin h b o e, h, k, rfl, e⟩
  next y q =>
    left
    split at q
    next z => rw [ARA.heap_insert_err (ARA.keyOf_none.mpr z) q]
    next z =>
      exfalso
      obtain ⟨h', r⟩ := (update_ok_iff st.heap s k).mpr (fun hk => z (ARA.keyOf_none.mp hk))
      rw [r] at q; cases q

theorem selectLoop_ok {st : RStar} : ∀ {l : List Nat} {q : Nat} {b : Option (Nat × Nat)}, (∀ a ∈ l, ∃ x, st.acts a = some x) →
    ∃ q' b', selectLoop st l q b = .ok (q', b') ∧ ((q', b') = (q, b) ∨ ∃ a ∈ l, ∃ x, st.acts a = some x ∧ b' = some (x.src, a) ∧ q' = st.g x.src + x.clow) ∧ q' ≤ q ∧
      ∀ a ∈ l, ∀ x, st.acts a = some x → q' ≤ st.g x.src + x.clow
  | [], q, b, _ => ⟨q, b, rfl, .inl rfl, Nat.le_refl _, by simp⟩
  | a :: as, q, b, h => by
    obtain ⟨x, hx⟩ := h a List.mem_cons_self
    unfold selectLoop
    simp only [deref, hx]
    split
    next ge =>
      obtain ⟨q', b', h1, h2, h3, h4⟩ := selectLoop_ok (st := st) (l := as) (q := st.g x.src + x.clow) (b := some (x.src, a)) (fun c hc => h c (List.mem_cons_of_mem _ hc))
      refine ⟨q', b', h1, ?_, by omega, ?_⟩
      · rcases h2 with h2 | ⟨c, hc, y, r⟩
        · injection h2 with h2 h2'
          exact .inr ⟨a, List.mem_cons_self, x, hx, h2', h2⟩
        · exact .inr ⟨c, List.mem_cons_of_mem _ hc, y, r⟩
      · intro c hc y hy
        rcases List.mem_cons.mp hc with rfl | hc
        · rw [hx] at hy; cases hy; exact h3
        · exact h4 c hc y hy
    next lt =>
      obtain ⟨q', b', h1, h2, h3, h4⟩ := selectLoop_ok (st := st) (l := as) (q := q) (b := b) (fun c hc => h c (List.mem_cons_of_mem _ hc))
      refine ⟨q', b', h1, ?_, h3, ?_⟩
      · rcases h2 with h2 | ⟨c, hc, y, r⟩
        · exact .inl h2
        · exact .inr ⟨c, List.mem_cons_of_mem _ hc, y, r⟩
      · intro c hc y hy
        rcases List.mem_cons.mp hc with rfl | hc
        · rw [hx] at hy; cases hy; omega
        · exact h4 c hc y hy

/-- "select other best predecessor" does nothing or sets one of the predecessor actions -/
theorem selectBest_cases {st : RStar} {z gl s : Nat} (hp : ∀ a ∈ st.predA s, ∃ x, st.acts a = some x) :
    (st.selectBest z gl s = .ok st ∧ ∀ a ∈ st.predA s, ∀ x, st.acts a = some x → INFINITECOST ≤ st.g x.src + x.clow) ∨
      ∃ a ∈ st.predA s, ∃ x, st.acts a = some x ∧ st.selectBest z gl s = st.setBest z gl s x.src a := by
  unfold selectBest
  obtain ⟨q, b, h1, h2, h3, h4⟩ := selectLoop_ok (st := st) (l := st.predA s) (q := INFINITECOST) (b := none) hp
  rw [h1]
  dsimp only
  rcases h2 with h2 | ⟨a, ha, x, hx, rfl, rfl⟩
  · injection h2 with h2 h2'
    subst h2 h2'
    left
    exact ⟨if_neg (by omega), h4⟩
  · by_cases lt : st.g x.src + x.clow < INFINITECOST
    · right
      exact ⟨a, ha, x, hx, by rw [if_pos lt]⟩
    · left
      refine ⟨by rw [if_neg lt], fun b hb y hy => ?_⟩
      have := h4 b hb y hy
      omega

/-- after the low-level search -/
theorem conclude_cases {st : RStar} (i : HOk G s0 st) {z gl s a : Nat} {x : RAct} {sw : Bool} (c : Cur st s) (ha : a ∈ st.predA s) (hx : st.acts a = some x) :
    (st.conclude z gl s x.src a sw = .ok st ∧ (sw = true ∨ x.path = [] ∨ ∀ b ∈ st.predA s, ∀ y, st.acts b = some y → INFINITECOST ≤ st.g y.src + y.clow)) ∨
      ∃ b ∈ st.predA s, ∃ y, st.acts b = some y ∧ st.conclude z gl s x.src a sw = st.setBest z gl s y.src b := by
  have hp : ∀ a ∈ st.predA s, ∃ x, st.acts a = some x := fun b hb => by
    obtain ⟨y, hy, _⟩ := i.pred s b c hb
    exact ⟨y, hy⟩
  unfold conclude
  simp only [deref, hx]
  split
  · rcases selectBest_cases (z := z) (gl := gl) hp with h | h
    · exact .inl ⟨h.1, .inr (.inr h.2)⟩
    · exact .inr h
  · split
    · exact .inr ⟨a, ha, x, hx, rfl⟩
    next h =>
      left
      refine ⟨rfl, .inl ?_⟩
      cases sw with
      | true => rfl
      | false => exact absurd (Or.inr rfl) h

theorem conclude_post {st : RStar} (i : HOk G s0 st) {z gl s a : Nat} {x : RAct} {sw : Bool} (c : Cur st s) (ha : a ∈ st.predA s) (hx : st.acts a = some x) :
    Post (st.conclude z gl s x.src a sw) (fun st' => HOk G s0 st' ∧ Fr st st') := by
  rcases conclude_cases i (z := z) (gl := gl) (sw := sw) c ha hx with h | ⟨b, hb, y, hy, h⟩
  · rw [h.1]; exact ⟨i, .refl _⟩
  · rw [h]
    refine (setBest_post i (z := z) (gl := gl) (p := y.src) c hb hy).mono ?_
    rintro st' ⟨h1, h, k, rfl, _⟩
    exact ⟨h1, rfl, rfl, rfl, rfl, rfl, fun _ h => h⟩

theorem lres_seg {p : LP} {r : LRes} {x : RAct} (h : LResOk G p r) (e1 : x.src = p.src) (e2 : x.tgt = r.newGoal) (e3 : x.cost = r.cost) (e4 : x.path = r.path) (e5 : x.clow = r.clow) :
    SegOk G p.fwd x := by
  rcases h.res with ⟨h1, h2⟩ | ⟨l, h1, h2, h3, h4, h5, h6, h7, h8, _⟩
  · exact .inl ⟨e4.trans h1, e3.trans h2⟩
  · exact .inr ⟨l, e4.trans h1, h2, by rw [e1, e3]; exact h3, by rw [e1, e2]; exact h4, by rw [e5]; exact h7, by rw [e3, e5]; exact h5, by rw [e1]; exact h8⟩

theorem recompute_post {st : RStar} (i : HOk G s0 st) (hpos : ∀ s t c, (t, c) ∈ G s → 1 ≤ c) {clk : Nat → Bool} {fuel z gl s a : Nat} (c : Cur st s)
    (ha : st.best s = some a) : Post (st.recompute clk fuel z gl s a) (fun st' => HOk G s0 st' ∧ Fr st st') := by
  obtain ⟨x, hx, h2, h3, h4, h5, h6⟩ := i.bestOk c ha
  have hmem := i.best s a c ha
  unfold recompute
  simp only [deref, hx]
  split
  next e he =>
    exact localPath_err (G := G) i.hG.symm hpos (Ne.symm h5) he
  next r hr =>
    have lr := localPath_ok (G := G) i.hG.symm hpos (Ne.symm h5) hr
    split
    next ne =>
      have i0 : HOk G s0 { st with tk := r.tk } := ⟨i.hG, i.cur0, i.leC, i.fresh, i.pred, i.best, i.gnone, i.bp, i.ord, i.inheap⟩
      have f := touch_frame i0 r.newGoal
      have i1 := touch_ok i0 r.newGoal
      generalize ht : touch { st with tk := r.tk } r.newGoal = st1 at *
      have hx1 := f.acts a x hx h3
      have i2 := i1.updAct (n := st1.tk) (x1 := { x with cost := INFINITECOST, clow := hDir st.env st.fwd x.src s, exp := r.exp, path := [] }) hx1 rfl rfl
        (.inl ⟨rfl, rfl⟩)
      have i3 := i2.addAct (x := ⟨x.src, r.newGoal, r.cost, r.clow, r.exp, r.path⟩) (f.callA _ h3)
        (by show _ ∨ st1.best x.src ≠ none; rw [f.best _ h3]; exact h4) (Ne.symm lr.ne)
        (by show SegOk G st1.fwd _; rw [f.fwd]; exact lres_seg lr rfl rfl rfl rfl rfl)
      have fr := touch_fr i0 r.newGoal
      rw [ht] at fr
      have fr0 : Fr st st1 := fr
      refine Post.mono (conclude_post (x := ⟨x.src, r.newGoal, r.cost, r.clow, r.exp, r.path⟩) i3 f.cur ?_ (upd_same _ _ _)) (fun st' h => ⟨h.1, Fr.trans (b := st1) fr0 h.2⟩)
      show st1.nacts ∈ upd st1.predA r.newGoal (st1.predA r.newGoal ++ [st1.nacts]) r.newGoal
      simp
    next e =>
      have e : r.newGoal = s := by omega
      have i1 := i.updAct (n := r.tk) (x1 := { x with cost := r.cost, clow := r.clow, exp := r.exp, path := r.path }) hx rfl rfl
        (lres_seg lr rfl (by rw [e]; exact h2) rfl rfl rfl)
      exact conclude_post (x := { x with cost := r.cost, clow := r.clow, exp := r.exp, path := r.path }) i1 c hmem (upd_same _ _ _)

theorem genLoop_post {z gl s : Nat} : ∀ {es : List (Nat × Nat)} {st : RStar}, HOk G s0 st → Cur st s → (s = s0 ∨ st.best s ≠ none) → st.closed s = true →
    Post (genLoop z gl s es st) (fun st' => HOk G s0 st' ∧ Fr st st')
  | [], st, i, _, _, _ => ⟨i, .refl _⟩
  | (t, cl) :: es, st, i, c, hb, hc => by
    unfold genLoop
    dsimp only
    have f := touch_frame i t
    have i1 := touch_ok i t
    have fr := touch_fr i t
    generalize ht : st.touch t = st1 at *
    have c1 : Cur st1 s := f.callA s c
    have hb1 : s = s0 ∨ st1.best s ≠ none := by rw [f.best s c]; exact hb
    have hc1 : st1.closed s = true := by rw [f.closed s c]; exact hc
    split
    · exact (genLoop_post i1 c1 hb1 hc1).mono (fun _ h => ⟨h.1, Fr.trans (b := st1) fr h.2⟩)
    next nc =>
      have hne : s ≠ t := by rintro rfl; exact nc hc1
      have i2 := i1.addAct (x := ⟨s, t, INFINITECOST, cl, 0, []⟩) c1 hb1 hne (.inl ⟨rfl, rfl⟩)
      split
      · have hm : st1.nacts ∈ (addAct st1 ⟨s, t, INFINITECOST, cl, 0, []⟩).predA t := by
          show _ ∈ upd st1.predA t (st1.predA t ++ [st1.nacts]) t
          simp
        have := setBest_post i2 (a := st1.nacts) (s := t) (p := s) (z := z) (gl := gl) f.cur hm (upd_same _ _ _)
        split
        next e he =>
          have h2 : setBest (addAct st1 ⟨s, t, INFINITECOST, cl, 0, []⟩) z gl t s st1.nacts = .error e := he
          rw [h2] at this; exact this
        next st3 he =>
          have h2 : setBest (addAct st1 ⟨s, t, INFINITECOST, cl, 0, []⟩) z gl t s st1.nacts = .ok st3 := he
          rw [h2] at this
          obtain ⟨i3, h, k, rfl, _⟩ := this
          refine Post.mono (genLoop_post i3 c1 ?_ hc1) (fun _ h => ⟨h.1, Fr.trans (b := st1) fr h.2⟩)
          rcases hb1 with h | h
          · exact .inl h
          · right
            show upd st1.best t (some st1.nacts) s ≠ none
            rw [upd_other _ _ hne]; exact h
      · exact (genLoop_post i2 c1 hb1 hc1).mono (fun _ h => ⟨h.1, Fr.trans (b := st1) fr h.2⟩)

theorem expand_post {st : RStar} (i : HOk G s0 st) {z gl s : Nat} (c : Cur st s) (hb : s = s0 ∨ st.best s ≠ none) :
    Post (st.expand z gl s) (fun st' => HOk G s0 st' ∧ Fr st st') := by
  unfold expand
  refine genLoop_post (st := { st with closed := upd st.closed s true, rc := st.rc + 1 }) ?_ c hb (upd_same _ _ _)
  exact ⟨i.hG, i.cur0, i.leC, i.fresh, i.pred, i.best, i.gnone, i.bp, i.ord, i.inheap⟩

theorem process_post {st : RStar} (i : HOk G s0 st) (hpos : ∀ s t c, (t, c) ∈ G s → 1 ≤ c) {clk : Nat → Bool} {fuel gl s : Nat} (c : Cur st s)
    (hb : s = s0 ∨ st.best s ≠ none) : Post (st.process clk fuel s0 gl s) (fun st' => HOk G s0 st' ∧ Fr st st') := by
  unfold process
  split
  · exact expand_post i c hb
  next hne =>
    split
    next q => rcases hb with h | h; exact absurd h hne; exact absurd q h
    next a q =>
      obtain ⟨x, hx, _⟩ := i.bestOk c q
      simp only [deref, hx]
      split
      · exact recompute_post i hpos c q
      · exact expand_post i c hb

theorem HOk.pop {st : RStar} (i : HOk G s0 st) {s n : Nat} {h : Heap CKey} (e : st.heap.deleteMin = .ok (s, h)) :
    HOk G s0 { st with heap := h, tk := n } ∧ Cur st s ∧ (s = s0 ∨ st.best s ≠ none) := by
  obtain ⟨b, ko, _, o, _, k, hk, _, _⟩ := deleteMin_spec i.bp i.ord e
  obtain ⟨h1, h2⟩ := i.inheap s k hk
  refine ⟨⟨i.hG, i.cur0, i.leC, i.fresh, i.pred, i.best, i.gnone, b, o, ?_⟩, h1, h2⟩
  intro t k' ht
  have ht : keyOf h t = some k' := ht
  rw [ko] at ht
  by_cases q : t = s
  · subst q; simp at ht
  · rw [upd_other _ _ q] at ht; exact i.inheap t k' ht

theorem improveLoop_post (hpos : ∀ s t c, (t, c) ∈ G s → 1 ≤ c) {clk : Nat → Bool} {gl : Nat} : ∀ {fuel : Nat} {st : RStar} {gk mnk : CKey}, HOk G s0 st → Cur st gl →
    Post (improveLoop clk s0 gl fuel st gk mnk) (fun r => HOk G s0 r.1 ∧ Fr st r.1)
  | 0, _, _, _, _, _ => .inr rfl
  | fuel + 1, st, gk, mnk, i, c => by
    have it : HOk G s0 { st with tk := st.tk + 1 } := ⟨i.hG, i.cur0, i.leC, i.fresh, i.pred, i.best, i.gnone, i.bp, i.ord, i.inheap⟩
    unfold improveLoop
    split
    · exact ⟨i, .refl _⟩
    next ne =>
      split
      · exact ⟨it, Fr.refl st⟩
      · dsimp only
        obtain ⟨k1, hk1⟩ := keyFor_ok i (a := s0) (b := gl) c
        rw [hk1]
        dsimp only
        split
        · exact ⟨it, Fr.refl st⟩
        · split
          next e he =>
            exfalso
            unfold Heap.deleteMin at he
            split at he
            next z => exact ne (by simp [Heap.isEmpty, z])
            next => cases he
          next s h he =>
            obtain ⟨i1, c1, hb⟩ := i.pop (n := st.tk + 1) he
            have hp := process_post i1 hpos (clk := clk) (fuel := fuel) (gl := gl) c1 hb
            split
            next e hq => rw [hq] at hp; exact hp
            next st1 hq =>
              rw [hq] at hp
              obtain ⟨hp, fr⟩ : HOk G s0 st1 ∧ Fr { st with heap := h, tk := st.tk + 1 } st1 := hp
              have c2 : Cur st1 gl := fr.cur _ c
              obtain ⟨k2, hk2⟩ := keyFor_ok hp (a := s0) (b := gl) c2
              rw [hk2]
              dsimp only
              exact (improveLoop_post hpos hp c2).mono (fun _ h => ⟨h.1, Fr.trans (a := st) (b := st1) fr h.2⟩)

theorem improvePath_post (hpos : ∀ s t c, (t, c) ∈ G s → 1 ≤ c) {clk : Nat → Bool} {fuel gl : Nat} {st : RStar} (i : HOk G s0 st) :
    Post (st.improvePath clk fuel s0 gl) (fun r => HOk G s0 r.1 ∧ Fr st r.1 ∧ Cur r.1 gl) := by
  have i1 := touch_ok i gl
  have f := touch_frame i gl
  have fr := touch_fr i gl
  unfold improvePath
  dsimp only
  split
  next e he =>
    split at he
    · cases he
    · obtain ⟨k, hk⟩ := keyFor_ok i1 (a := s0) (b := gl) i1.cur0
      rw [hk] at he; cases he
  next gk he =>
    have := improveLoop_post hpos (clk := clk) (fuel := fuel) (gk := gk) (mnk := (st.touch gl).heap.getMinKey CKey.infinity) i1 f.cur
    split
    next e hq => rw [hq] at this; exact this
    next st2 a b hq =>
      rw [hq] at this
      exact ⟨this.1, fr.trans this.2, this.2.cur _ f.cur⟩

/-- what holds between the calls -/
structure RBase (st : RStar) : Prop where
  leC : ∀ s, st.callA s ≤ st.call
  fresh : ∀ a, st.nacts ≤ a → st.acts a = none
  bp : BP st.heap

theorem HOk.base {st : RStar} (i : HOk G s0 st) : RBase st := ⟨i.leC, i.fresh, i.bp⟩

theorem nextEps_same (st : RStar) : (nextEps st).callA = st.callA ∧ (nextEps st).call = st.call ∧ (nextEps st).acts = st.acts ∧ (nextEps st).nacts = st.nacts ∧
    (nextEps st).heap = st.heap ∧ (nextEps st).env = st.env ∧ (nextEps st).fwd = st.fwd ∧ (nextEps st).start = st.start ∧ (nextEps st).goal = st.goal := by
  unfold nextEps; split <;> exact ⟨rfl, rfl, rfl, rfl, rfl, rfl, rfl, rfl, rfl⟩

/-- the state after the re-initialisation of a search -/
structure Start (s0 : Nat) (st : RStar) : Prop where
  only : ∀ t, Cur st t → t = s0
  g : st.g s0 = 0
  best : st.best s0 = none
  predA : st.predA s0 = []
  closed : st.closed s0 = false
  heap : ∀ t k, keyOf st.heap t = some k → t = s0

theorem reinitSpace_post {st : RStar} (b : RBase st) {gl : Nat} :
    Post (st.reinitSpace s0 gl) (fun st' => HOk (nbr st.env st.fwd) s0 st' ∧ Start s0 st' ∧ st'.env = st.env ∧ st'.fwd = st.fwd ∧ st'.start = st.start ∧ st'.goal = st.goal) := by
  obtain ⟨m1, m2, m3, m4, _⟩ := makeEmpty_spec b.bp
  have stale : st.callA s0 ≠ st.call + 1 := by have := b.leC s0; omega
  have hidx : upd st.heap.makeEmpty.idx s0 0 = st.heap.makeEmpty.idx := by
    funext t; simp only [upd]; split
    next q => rw [q]; exact (ARA.keyOf_none.mp (m2 s0)).symm
    next => rfl
  unfold reinitSpace
  have ht : touch { st with call := st.call + 1, heap := st.heap.makeEmpty } s0 = reinitState { st with call := st.call + 1, heap := st.heap.makeEmpty } s0 := by
    unfold touch; exact if_pos stale
  rw [ht]
  have hk : ∃ k, keyFor { reinitState { st with call := st.call + 1, heap := st.heap.makeEmpty } s0 with
      g := upd (reinitState { st with call := st.call + 1, heap := st.heap.makeEmpty } s0).g s0 0 } s0 gl s0 = .ok k := by
    unfold keyFor
    dsimp only
    split
    · exact ⟨_, rfl⟩
    · simp only [reinitState, upd_same]
      exact ⟨_, rfl⟩
  obtain ⟨k, hk⟩ := hk
  dsimp only at hk ⊢
  rw [hk]
  dsimp only
  have hh : (reinitState { st with call := st.call + 1, heap := st.heap.makeEmpty } s0).heap = st.heap.makeEmpty := by
    show ({ st.heap.makeEmpty with idx := upd st.heap.makeEmpty.idx s0 0 } : Heap CKey) = _
    rw [hidx]
  rw [hh]
  have only : ∀ t, upd st.callA s0 (st.call + 1) t = st.call + 1 → t = s0 := by
    intro t c
    by_cases q : t = s0
    · exact q
    · rw [upd_other _ _ q] at c; have := b.leC t; omega
  split
  next e he => left; rw [ARA.heap_insert_err (m2 s0) he]
  next h he =>
    obtain ⟨b1, e1, _, o1, _, _⟩ := insert_spec m1 he
    have inh : ∀ t k, keyOf h t = some k → t = s0 := by
      intro t k' q
      rw [e1] at q
      by_cases r : t = s0
      · exact r
      · rw [upd_other _ _ r, m2] at q; cases q
    refine ⟨⟨rfl, ?_, ?_, ?_, ?_, ?_, ?_, b1, o1 m4, ?_⟩, ⟨fun t c => only t c, ?_, ?_, ?_, ?_, inh⟩, rfl, rfl, rfl, rfl⟩
    · show upd st.callA s0 (st.call + 1) s0 = st.call + 1; simp
    · intro t
      show upd st.callA s0 (st.call + 1) t ≤ st.call + 1
      by_cases q : t = s0
      · rw [q]; simp
      · rw [upd_other _ _ q]; have := b.leC t; omega
    · intro a ha
      show (match st.acts a with | some x => if x.src = s0 then none else some x | none => none) = none
      rw [b.fresh a ha]
    · intro t a c ha
      have := only t c
      subst this
      have ha : a ∈ upd st.predA t [] t := ha
      rw [upd_same] at ha; cases ha
    · intro t a c ha
      have := only t c
      subst this
      have ha : upd st.best t none t = some a := ha
      rw [upd_same] at ha; cases ha
    · intro t c hn _; exact absurd (only t c) hn
    · intro t k' q
      have := inh t k' q
      subst this
      exact ⟨by show upd st.callA t (st.call + 1) t = st.call + 1; simp, .inl rfl⟩
    · show upd (upd st.g s0 INFINITECOST) s0 0 s0 = 0; simp
    · show upd st.best s0 none s0 = none; simp
    · show upd st.predA s0 [] s0 = []; simp
    · show upd st.closed s0 false s0 = false; simp

end Sbpl.RStar
