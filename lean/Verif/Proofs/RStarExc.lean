import Verif.Proofs.RStarPath
import Verif.Proofs.ListAux
/-! # R*: with the identity equivalence and bounded costs path extraction raises no exception -/

namespace Sbpl.RStar
open GraphSpec Heap

variable {G : Nat → List (Nat × Nat)} {s0 : Nat}

/-- the bounds: all states reachable from `s0` are in `V`, low-level solutions cost at most `B` -/
structure Bnd (G : Nat → List (Nat × Nat)) (s0 : Nat) (V : List Nat) (C : Nat) : Prop where
  s0V : s0 ∈ V
  cl : ∀ s ∈ V, ∀ t c, (t, c) ∈ G s → t ∈ V ∧ c ≤ C
  lim : C * V.length * V.length < INFINITECOST

/-- invariant of the search needed for the exceptions of GetSearchPath -/
structure ExtX (ex : Option Nat) (V : List Nat) (B s0 : Nat) (st : RStar) : Prop where
  g0 : st.g s0 = 0
  b0 : st.best s0 = none
  noc : ∀ t k, keyOf st.heap t = some k → st.closed t = false
  c0 : ∀ t, Cur st t → st.closed t = true → st.closed s0 = true
  srcC : ∀ s a x, Cur st s → a ∈ st.predA s → st.acts a = some x → st.closed x.src = true
  cb : ∀ s, Cur st s → st.closed s = true → s = s0 ∨ ∃ a x, st.best s = some a ∧ st.acts a = some x ∧ x.path ≠ []
  gc : ∀ s a x, some s ≠ ex → Cur st s → st.best s = some a → st.acts a = some x → x.path ≠ [] → st.g s = st.g x.src + x.clow
  clowB : ∀ s a x, Cur st s → a ∈ st.predA s → st.acts a = some x → x.path ≠ [] → x.clow ≤ B ∧ s ∈ V
  cnt : ∃ L : List Nat, L.Nodup ∧ (∀ s, s ∈ L ↔ Cur st s ∧ st.closed s = true) ∧ (∀ s ∈ L, s ∈ V) ∧ ∀ s ∈ L, st.g s ≤ B * (L.length - 1)

abbrev Ext (V : List Nat) (B s0 : Nat) (st : RStar) : Prop := ExtX none V B s0 st

variable {V : List Nat} {B C : Nat}

theorem touch_ext {st : RStar} (i : HOk G s0 st) (x : Ext V B s0 st) (s : Nat) : Ext V B s0 (st.touch s) := by
  have f := touch_frame i s
  have key : ∀ t, Cur (st.touch s) t → (st.touch s).closed t = true → Cur st t := by
    intro t c h
    rcases f.cur_or c with q | ⟨rfl, q⟩
    · exact q
    · rw [(f.new q).2.2.2] at h; cases h
  have src : ∀ {t a y}, Cur st t → a ∈ st.predA t → st.acts a = some y → Cur st y.src := by
    intro t a y c ha hy
    obtain ⟨z, h1, h2⟩ := i.pred t a c ha
    rw [hy] at h1; cases h1; exact h2.2.1
  refine ⟨by rw [f.g _ i.cur0]; exact x.g0, by rw [f.best _ i.cur0]; exact x.b0, ?_, ?_, ?_, ?_, ?_, ?_, ?_⟩
  · intro t k hk
    rw [f.heap] at hk
    rw [f.closed t (i.inheap t k hk).1]; exact x.noc t k hk
  · intro t c h
    have := key t c h
    rw [f.closed _ this] at h
    rw [f.closed _ i.cur0]; exact x.c0 t this h
  · intro t a y c ha hy
    have hy := f.acts' a y hy
    rcases f.cur_or c with q | ⟨rfl, q⟩
    · rw [f.predA t q] at ha
      rw [f.closed _ (src q ha hy)]
      exact x.srcC t a y q ha hy
    · rw [(f.new q).2.2.1] at ha; cases ha
  · intro t c h
    have q := key t c h
    rw [f.closed _ q] at h
    rcases x.cb t q h with h | ⟨a, y, h1, h2, h3⟩
    · exact .inl h
    · exact .inr ⟨a, y, by rw [f.best t q]; exact h1, f.acts a y h2 (src q (i.best t a q h1) h2), h3⟩
  · intro t a y _ c ha hy hp
    have hy := f.acts' a y hy
    rcases f.cur_or c with q | ⟨rfl, q⟩
    · rw [f.best t q] at ha
      rw [f.g t q, f.g _ (src q (i.best t a q ha) hy)]
      exact x.gc t a y nofun q ha hy hp
    · rw [(f.new q).2.1] at ha; cases ha
  · intro t a y c ha hy hp
    have hy := f.acts' a y hy
    rcases f.cur_or c with q | ⟨rfl, q⟩
    · rw [f.predA t q] at ha
      exact x.clowB t a y q ha hy hp
    · rw [(f.new q).2.2.1] at ha; cases ha
  · obtain ⟨L, h1, h2, h3, h4⟩ := x.cnt
    refine ⟨L, h1, fun t => ⟨fun h => ?_, fun h => ?_⟩, h3, fun t h => ?_⟩
    · obtain ⟨q1, q2⟩ := (h2 t).mp h
      exact ⟨f.callA t q1, by rw [f.closed t q1]; exact q2⟩
    · have q := key t h.1 h.2
      refine (h2 t).mpr ⟨q, ?_⟩
      rw [← f.closed t q]; exact h.2
    · rw [f.g t ((h2 t).mp h).1]; exact h4 t h

/-- SetBestPredecessor on a state that is neither closed nor the start -/
theorem setBest_ext {st st' : RStar} (i : HOk G s0 st) {ex : Option Nat} (x : ExtX ex V B s0 st) {a s z gl : Nat} {y : RAct} (c : Cur st s) (ha : a ∈ st.predA s) (hy : st.acts a = some y)
    (hc : st.closed s = false) (hn : s ≠ s0) (hex : ∀ t, t ≠ s → some t ≠ ex) (e : st.setBest z gl s y.src a = .ok st') : Ext V B s0 st' := by
  have := setBest_post i (z := z) (gl := gl) (p := y.src) c ha hy
  rw [e] at this
  obtain ⟨_, h, k, rfl, hk⟩ := this
  obtain ⟨y', h1, _, h3, _, h5, _⟩ := i.pred s a c ha
  rw [hy] at h1; cases h1
  have gsame : ∀ t, st.closed t = true → upd st.g s (st.g y.src + y.clow) t = st.g t := by
    intro t ht
    refine upd_other _ _ ?_
    rintro rfl; rw [hc] at ht; cases ht
  refine ⟨?_, by show upd st.best s (some a) s0 = none; rw [upd_other _ _ (Ne.symm hn)]; exact x.b0, ?_, x.c0, x.srcC, ?_, ?_, x.clowB, ?_⟩
  · show upd st.g s (st.g y.src + y.clow) s0 = 0
    rw [upd_other _ _ (Ne.symm hn)]; exact x.g0
  · intro t k' q
    have q : keyOf h t = some k' := q
    rw [hk] at q
    by_cases r : t = s
    · rw [r]; exact hc
    · rw [upd_other _ _ r] at q; exact x.noc t k' q
  · intro t ct ht
    have ht : st.closed t = true := ht
    have r : t ≠ s := by rintro rfl; rw [hc] at ht; cases ht
    rcases x.cb t ct ht with h | ⟨b, w, h1, h2, h3⟩
    · exact .inl h
    · exact .inr ⟨b, w, by show upd st.best s (some a) t = _; rw [upd_other _ _ r]; exact h1, h2, h3⟩
  · intro t b w _ ct hb hw hp
    have hb : upd st.best s (some a) t = some b := hb
    show upd st.g s (st.g y.src + y.clow) t = upd st.g s (st.g y.src + y.clow) w.src + w.clow
    by_cases r : t = s
    · subst r
      rw [upd_same] at hb; cases hb
      have hw : st.acts a = some w := hw
      rw [hy] at hw; cases hw
      rw [upd_same, gsame _ (x.srcC t a y c ha hy)]
    · rw [upd_other _ _ r] at hb
      have hm := i.best t b ct hb
      rw [upd_other _ _ r, gsame _ (x.srcC t b w ct hm hw)]
      exact x.gc t b w (hex t r) ct hb hw hp
  · obtain ⟨L, h1, h2, h3, h4⟩ := x.cnt
    refine ⟨L, h1, h2, h3, fun t ht => ?_⟩
    show upd st.g s (st.g y.src + y.clow) t ≤ _
    rw [gsame t ((h2 t).mp ht).2]; exact h4 t ht

theorem Ext.src_le {st : RStar} (b : Bnd G s0 V C) (x : Ext V (C * V.length) s0 st) {t : Nat} (c : Cur st t) (h : st.closed t = true) :
    st.g t + C * V.length < INFINITECOST := by
  obtain ⟨L, h1, h2, h3, h4⟩ := x.cnt
  have hm := (h2 t).mpr ⟨c, h⟩
  have := h4 t hm
  have hl := nodup_len_le h1 h3
  have hp : 0 < L.length := List.length_pos_of_mem hm
  have := b.lim
  have : C * V.length * (L.length - 1) + C * V.length ≤ C * V.length * V.length := by
    have e : C * V.length * (L.length - 1) + C * V.length = C * V.length * L.length := by
      obtain ⟨n, hn⟩ : ∃ n, L.length = n + 1 := ⟨L.length - 1, by omega⟩
      rw [hn]; simp [Nat.mul_add]
    rw [e]; exact Nat.mul_le_mul_left _ hl
  omega

theorem walk_in {V : List Nat} (h : ∀ s ∈ V, ∀ t c, (t, c) ∈ G s → t ∈ V) {a : Nat} (ha : a ∈ V) : ∀ {t n : Nat}, Walk G a t n → t ∈ V
  | _, _, .nil => ha
  | _, _, .snoc w e => h _ (walk_in h ha w) _ _ e

theorem labW_boundV (b : Bnd G s0 V C) {a : Nat} (ha : a ∈ V) : ∀ {W : List (Nat × Nat)} {t n : Nat}, LabW G a ((t, n) :: W) → n ≤ C * W.length ∧ ∀ x ∈ (t, n) :: W, x.1 ∈ V
  | [], t, n, h => by
    obtain ⟨h1, h⟩ := h
    refine ⟨by omega, fun x hx => ?_⟩
    simp at hx; subst hx; rw [h1]; exact ha
  | (s, m) :: W, t, n, h => by
    obtain ⟨⟨c, hc, e⟩, h⟩ := h
    obtain ⟨h1, h2⟩ := labW_boundV b ha h
    have := b.cl s (h2 _ List.mem_cons_self) t c hc
    refine ⟨by simp only [List.length_cons, Nat.mul_succ]; omega, fun x hx => ?_⟩
    rcases List.mem_cons.mp hx with rfl | hx
    · exact this.1
    · exact h2 x hx

theorem closed_V {st : RStar} (x : Ext V B s0 st) {t : Nat} (c : Cur st t) (h : st.closed t = true) : t ∈ V := by
  obtain ⟨L, h1, h2, h3, h4⟩ := x.cnt
  exact h3 t ((h2 t).mpr ⟨c, h⟩)

/-- "re-compute path" with the identity equivalence -/
theorem recompute_ext {st st' : RStar} (i : HOk G s0 st) (b : Bnd G s0 V C) (x : Ext V (C * V.length) s0 st) (hpos : ∀ s t c, (t, c) ∈ G s → 1 ≤ c)
    (hid : ∀ a b, st.env.equiv a b = true → a = b) {clk : Nat → Bool} {fuel gl s a : Nat} (c : Cur st s) (hb : st.best s = some a) (hc : st.closed s = false)
    (hn : s ≠ s0) (e : st.recompute clk fuel s0 gl s a = .ok st') : Ext V (C * V.length) s0 st' := by
  obtain ⟨y, hy, h2, h3, h4, h5, h6⟩ := i.bestOk c hb
  have hmem := i.best s a c hb
  have hsc := x.srcC s a y c hmem hy
  unfold recompute at e
  simp only [deref, hy] at e
  split at e
  · cases e
  next r hr =>
    have lr := localPath_ok (G := G) i.hG.symm hpos (Ne.symm h5) hr
    have hg : r.newGoal = s := by
      rcases lr.tgt with h | ⟨u, v, h, h'⟩
      · exact h
      · exact absurd (hid u v h') h
    rw [if_neg (by omega)] at e
    have i1 := i.updAct (n := r.tk) (x1 := { y with cost := r.cost, clow := r.clow, exp := r.exp, path := r.path }) hy rfl rfl
        (lres_seg lr rfl (by rw [hg]; exact h2) rfl rfl rfl)
    have hB : r.path ≠ [] → r.clow ≤ C * V.length ∧ s ∈ V := by
      intro hp
      rcases lr.res with ⟨q, _⟩ | ⟨l, _, _, _, _, _, _, _, _, _, W, w1, w2⟩
      · exact absurd q hp
      · obtain ⟨u1, u2⟩ := labW_boundV b (closed_V x h3 hsc) w1
        have := nodup_len_le w2 (R := V) (fun t ht => by
          obtain ⟨p, hp, rfl⟩ := List.mem_map.mp ht
          exact u2 p hp)
        simp only [List.map_cons, List.length_cons, List.length_map] at this
        refine ⟨Nat.le_trans u1 (Nat.mul_le_mul_left _ (by omega)), ?_⟩
        have := u2 _ List.mem_cons_self
        rw [← hg]; exact this
    have lk : ∀ {d w}, upd st.acts a (some { y with cost := r.cost, clow := r.clow, exp := r.exp, path := r.path }) d = some w →
        (d = a ∧ w = { y with cost := r.cost, clow := r.clow, exp := r.exp, path := r.path }) ∨ (d ≠ a ∧ st.acts d = some w) := by
      intro d w h
      by_cases q : d = a
      · subst q; rw [upd_same] at h; cases h; exact .inl ⟨rfl, rfl⟩
      · rw [upd_other _ _ q] at h; exact .inr ⟨q, h⟩
    have own : ∀ {t}, Cur st t → a ∈ st.predA t → t = s := by
      intro t ct ha
      obtain ⟨w, q1, q2, _⟩ := i.pred t a ct ha
      rw [hy] at q1; cases q1
      rw [← q2]; exact h2
    have x1 : ExtX (if r.path = [] then none else some s) V (C * V.length) s0
        { st with tk := r.tk, acts := upd st.acts a (some { y with cost := r.cost, clow := r.clow, exp := r.exp, path := r.path }) } := by
      refine ⟨x.g0, x.b0, x.noc, x.c0, ?_, ?_, ?_, ?_, x.cnt⟩
      · intro t d w ct hd hw
        rcases lk hw with ⟨rfl, rfl⟩ | ⟨_, hw⟩
        · exact hsc
        · exact x.srcC t d w ct hd hw
      · intro t ct ht
        rcases x.cb t ct ht with h | ⟨d, w, q1, q2, q3⟩
        · exact .inl h
        · right
          refine ⟨d, w, q1, ?_, q3⟩
          have : d ≠ a := by
            rintro rfl
            have := own ct (i.best t d ct q1)
            subst this
            have ht : st.closed t = true := ht
            rw [hc] at ht; cases ht
          show upd st.acts a _ d = some w
          rw [upd_other _ _ this]; exact q2
      · intro t d w hne ct hd hw hp
        rcases lk hw with ⟨rfl, rfl⟩ | ⟨_, hw⟩
        · have := own ct (i.best t d ct hd)
          subst this
          exact absurd (if_neg hp).symm hne
        · exact x.gc t d w nofun ct hd hw hp
      · intro t d w ct hd hw hp
        rcases lk hw with ⟨rfl, rfl⟩ | ⟨_, hw⟩
        · have := own ct hd
          subst this
          exact hB hp
        · exact x.clowB t d w ct hd hw hp
    rcases conclude_cases i1 (z := s0) (gl := gl) (sw := false) c hmem (upd_same _ _ _) with ⟨q, h⟩ | ⟨d, hd, w, hw, q⟩
    · rw [q] at e; cases e
      by_cases hp : r.path = []
      · rw [if_pos hp] at x1; exact x1
      · exfalso
        rcases h with h | h | h
        · cases h
        · exact hp h
        · have q1 : INFINITECOST ≤ st.g y.src + r.clow := h a hmem _ (upd_same _ _ _)
          have := hB hp
          have := x.src_le b h3 hsc
          omega
    · rw [q] at e
      refine setBest_ext i1 x1 c hd hw hc hn ?_ e
      intro t ht q
      split at q
      · cases q
      · cases q; exact ht rfl

theorem genLoop_ext {gl s : Nat} : ∀ {es : List (Nat × Nat)} {st st' : RStar}, HOk G s0 st → Ext V B s0 st → Cur st s → (s = s0 ∨ st.best s ≠ none) → st.closed s = true →
    genLoop s0 gl s es st = .ok st' → Ext V B s0 st'
  | [], st, st', _, x, _, _, _, e => by cases e; exact x
  | (t, cl) :: es, st, st', i, x, c, hb, hc, e => by
    unfold genLoop at e
    dsimp only at e
    have f := touch_frame i t
    have i1 := touch_ok i t
    have x1 := touch_ext i x t
    generalize ht : st.touch t = st1 at *
    have c1 : Cur st1 s := f.callA s c
    have hb1 : s = s0 ∨ st1.best s ≠ none := by rw [f.best s c]; exact hb
    have hc1 : st1.closed s = true := by rw [f.closed s c]; exact hc
    split at e
    · exact genLoop_ext i1 x1 c1 hb1 hc1 e
    next nc =>
      have hne : s ≠ t := by rintro rfl; exact nc hc1
      have ht0 : t ≠ s0 := by rintro rfl; exact nc (x1.c0 s c1 hc1)
      have nct : st1.closed t = false := by simpa using nc
      have i2 := i1.addAct (x := ⟨s, t, INFINITECOST, cl, 0, []⟩) c1 hb1 hne (.inl ⟨rfl, rfl⟩)
      have lk : ∀ {d w}, upd st1.acts st1.nacts (some ⟨s, t, INFINITECOST, cl, 0, []⟩) d = some w →
          (d = st1.nacts ∧ w = ⟨s, t, INFINITECOST, cl, 0, []⟩) ∨ (d ≠ st1.nacts ∧ st1.acts d = some w) := by
        intro d w h
        by_cases q : d = st1.nacts
        · subst q; rw [upd_same] at h; cases h; exact .inl ⟨rfl, rfl⟩
        · rw [upd_other _ _ q] at h; exact .inr ⟨q, h⟩
      have old : ∀ {u d}, d ≠ st1.nacts → d ∈ upd st1.predA t (st1.predA t ++ [st1.nacts]) u → d ∈ st1.predA u := by
        intro u d hd h
        by_cases q : u = t
        · subst q; rw [upd_same, List.mem_append] at h
          rcases h with h | h
          · exact h
          · simp at h; exact absurd h hd
        · rw [upd_other _ _ q] at h; exact h
      have x2 : Ext V B s0 (addAct st1 ⟨s, t, INFINITECOST, cl, 0, []⟩) := by
        refine ⟨x1.g0, x1.b0, x1.noc, x1.c0, ?_, ?_, ?_, ?_, x1.cnt⟩
        · intro u d w cu hd hw
          rcases lk hw with ⟨rfl, rfl⟩ | ⟨q, hw⟩
          · exact hc1
          · exact x1.srcC u d w cu (old q hd) hw
        · intro u cu hu
          rcases x1.cb u cu hu with h | ⟨d, w, q1, q2, q3⟩
          · exact .inl h
          · right
            refine ⟨d, w, q1, ?_, q3⟩
            have : d ≠ st1.nacts := by rintro rfl; rw [i1.fresh _ (Nat.le_refl _)] at q2; cases q2
            show upd st1.acts st1.nacts _ d = some w
            rw [upd_other _ _ this]; exact q2
        · intro u d w _ cu hd hw hp
          rcases lk hw with ⟨rfl, rfl⟩ | ⟨q, hw⟩
          · exact absurd rfl hp
          · exact x1.gc u d w nofun cu hd hw hp
        · intro u d w cu hd hw hp
          rcases lk hw with ⟨rfl, rfl⟩ | ⟨q, hw⟩
          · exact absurd rfl hp
          · exact x1.clowB u d w cu (old q hd) hw hp
      split at e
      · have hm : st1.nacts ∈ (addAct st1 ⟨s, t, INFINITECOST, cl, 0, []⟩).predA t := by
          show _ ∈ upd st1.predA t (st1.predA t ++ [st1.nacts]) t
          simp
        have := setBest_post i2 (a := st1.nacts) (s := t) (p := s) (z := s0) (gl := gl) f.cur hm (upd_same _ _ _)
        split at e
        · cases e
        next st3 he =>
          have h2 : setBest (addAct st1 ⟨s, t, INFINITECOST, cl, 0, []⟩) s0 gl t s st1.nacts = .ok st3 := he
          have x3 := setBest_ext (y := ⟨s, t, INFINITECOST, cl, 0, []⟩) i2 x2 f.cur hm (upd_same _ _ _) nct ht0 (fun _ _ => nofun) h2
          rw [h2] at this
          obtain ⟨i3, h, k, rfl, _⟩ := this
          refine genLoop_ext i3 x3 c1 ?_ hc1 e
          rcases hb1 with h | h
          · exact .inl h
          · right
            show upd st1.best t (some st1.nacts) s ≠ none
            rw [upd_other _ _ hne]; exact h
      · exact genLoop_ext i2 x2 c1 hb1 hc1 e

theorem expand_ext {st st' : RStar} (i : HOk G s0 st) (b : Bnd G s0 V C) (x : Ext V (C * V.length) s0 st) {gl s : Nat} (c : Cur st s) (hb : s = s0 ∨ st.best s ≠ none)
    (hk : keyOf st.heap s = none) (hc : st.closed s = false)
    (hp : s = s0 ∨ ∃ a y, st.best s = some a ∧ st.acts a = some y ∧ y.path ≠ []) (e : st.expand s0 gl s = .ok st') : Ext V (C * V.length) s0 st' := by
  unfold expand at e
  refine genLoop_ext (G := G) (st := { st with closed := upd st.closed s true, rc := st.rc + 1 }) ?_ ?_ c hb (upd_same _ _ _) e
  · exact ⟨i.hG, i.cur0, i.leC, i.fresh, i.pred, i.best, i.gnone, i.bp, i.ord, i.inheap⟩
  · have mono : ∀ t, st.closed t = true → upd st.closed s true t = true := by
      intro t h
      by_cases q : t = s
      · rw [q]; simp
      · rw [upd_other _ _ q]; exact h
    obtain ⟨L, h1, h2, h3, h4⟩ := x.cnt
    have hgs : st.g s ≤ C * V.length * L.length ∧ s ∈ V := by
      rcases hp with rfl | ⟨a, y, q1, q2, q3⟩
      · rw [x.g0]; exact ⟨Nat.zero_le _, b.s0V⟩
      · have hm := i.best s a c q1
        obtain ⟨y', w1, _, w3, _⟩ := i.pred s a c hm
        rw [q2] at w1; cases w1
        have hsc := x.srcC s a y c hm q2
        have hsm := (h2 y.src).mpr ⟨w3, hsc⟩
        have := h4 _ hsm
        have hl := List.length_pos_of_mem hsm
        obtain ⟨r1, r2⟩ := x.clowB s a y c hm q2 q3
        rw [x.gc s a y nofun c q1 q2 q3]
        refine ⟨?_, r2⟩
        obtain ⟨n, hn⟩ : ∃ n, L.length = n + 1 := ⟨L.length - 1, by omega⟩
        rw [hn] at this ⊢
        simp only [Nat.add_sub_cancel, Nat.mul_add, Nat.mul_one] at this ⊢
        omega
    have hsL : s ∉ L := by
      intro h
      have := ((h2 s).mp h).2
      rw [hc] at this; cases this
    refine ⟨x.g0, x.b0, ?_, ?_, ?_, ?_, x.gc, x.clowB, s :: L, List.nodup_cons.mpr ⟨hsL, h1⟩, ?_, ?_, ?_⟩
    · intro t k q
      have q : keyOf st.heap t = some k := q
      have : t ≠ s := by rintro rfl; rw [hk] at q; cases q
      show upd st.closed s true t = false
      rw [upd_other _ _ this]; exact x.noc t k q
    · intro t ct ht
      have ht : upd st.closed s true t = true := ht
      show upd st.closed s true s0 = true
      by_cases q : t = s
      · subst q
        rcases hp with rfl | ⟨a, y, q1, q2, q3⟩
        · simp
        · refine mono _ ?_
          have hm := i.best t a c q1
          obtain ⟨y', w1, _, w3, _⟩ := i.pred t a c hm
          rw [q2] at w1; cases w1
          exact x.c0 _ w3 (x.srcC t a y c hm q2)
      · rw [upd_other _ _ q] at ht; exact mono _ (x.c0 t ct ht)
    · intro t a y ct ha hy; exact mono _ (x.srcC t a y ct ha hy)
    · intro t ct ht
      have ht : upd st.closed s true t = true := ht
      by_cases q : t = s
      · subst q; exact hp
      · rw [upd_other _ _ q] at ht; exact x.cb t ct ht
    · intro t
      rw [List.mem_cons, h2]
      show _ ↔ Cur st t ∧ upd st.closed s true t = true
      constructor
      · rintro (rfl | h)
        · exact ⟨c, by simp⟩
        · exact ⟨h.1, mono _ h.2⟩
      · rintro ⟨q1, q2⟩
        by_cases q : t = s
        · exact .inl q
        · rw [upd_other _ _ q] at q2; exact .inr ⟨q1, q2⟩
    · intro t ht
      rcases List.mem_cons.mp ht with rfl | ht
      · exact hgs.2
      · exact h3 t ht
    · intro t ht
      rw [List.length_cons, Nat.add_sub_cancel]
      rcases List.mem_cons.mp ht with rfl | ht
      · exact hgs.1
      · exact Nat.le_trans (h4 t ht) (Nat.mul_le_mul_left _ (by omega))

theorem process_ext {st st' : RStar} (i : HOk G s0 st) (b : Bnd G s0 V C) (x : Ext V (C * V.length) s0 st) (hpos : ∀ s t c, (t, c) ∈ G s → 1 ≤ c)
    (hid : ∀ a b, st.env.equiv a b = true → a = b) {clk : Nat → Bool} {fuel gl s : Nat} (c : Cur st s) (hb : s = s0 ∨ st.best s ≠ none)
    (hk : keyOf st.heap s = none) (hc : st.closed s = false) (e : st.process clk fuel s0 gl s = .ok st') : Ext V (C * V.length) s0 st' := by
  unfold process at e
  split at e
  next h => exact expand_ext i b x c hb hk hc (.inl h) e
  next hne =>
    split at e
    · cases e
    next a q =>
      obtain ⟨y, hy, _⟩ := i.bestOk c q
      simp only [deref, hy] at e
      split at e
      · exact recompute_ext i b x hpos hid c q hc hne e
      next hp => exact expand_ext i b x c hb hk hc (.inr ⟨a, y, q, hy, hp⟩) e

theorem improveLoop_ext (b : Bnd G s0 V C) (hpos : ∀ s t c, (t, c) ∈ G s → 1 ≤ c) {clk : Nat → Bool} {gl : Nat} :
    ∀ {fuel : Nat} {st : RStar} {gk mnk : CKey} {r : RStar × CKey × CKey}, HOk G s0 st → Ext V (C * V.length) s0 st → (∀ a b, st.env.equiv a b = true → a = b) →
    improveLoop clk s0 gl fuel st gk mnk = .ok r → Ext V (C * V.length) s0 r.1
  | 0, _, _, _, _, _, _, _, e => by cases e
  | fuel + 1, st, gk, mnk, r, i, x, hid, e => by
    have xt : Ext V (C * V.length) s0 { st with tk := st.tk + 1 } := ⟨x.g0, x.b0, x.noc, x.c0, x.srcC, x.cb, x.gc, x.clowB, x.cnt⟩
    unfold improveLoop at e
    split at e
    · cases e; exact x
    next ne =>
      split at e
      · cases e; exact xt
      · dsimp only at e
        split at e
        · cases e
        · split at e
          · cases e; exact xt
          · split at e
            · cases e
            next s h he =>
              obtain ⟨i1, c1, hb⟩ := i.pop (n := st.tk + 1) he
              obtain ⟨_, ko, _, _, _, k, hk, _, _⟩ := deleteMin_spec i.bp i.ord he
              have x1 : Ext V (C * V.length) s0 { st with heap := h, tk := st.tk + 1 } := by
                refine ⟨x.g0, x.b0, ?_, x.c0, x.srcC, x.cb, x.gc, x.clowB, x.cnt⟩
                intro t k' q
                have q : keyOf h t = some k' := q
                rw [ko] at q
                by_cases r : t = s
                · subst r; simp at q
                · rw [upd_other _ _ r] at q; exact x.noc t k' q
              have hp := process_post i1 hpos (clk := clk) (fuel := fuel) (gl := gl) c1 hb
              split at e
              · cases e
              next st1 hq =>
                rw [hq] at hp
                obtain ⟨hp, fr⟩ : HOk G s0 st1 ∧ Fr { st with heap := h, tk := st.tk + 1 } st1 := hp
                have x2 := process_ext i1 b x1 hpos hid c1 hb (by show keyOf h s = none; rw [ko]; simp) (x.noc s k hk) hq
                split at e
                · cases e
                · exact improveLoop_ext b hpos hp x2 (by rw [fr.env]; exact hid) e

theorem start_ext {st : RStar} (b : Bnd G s0 V C) (h : Start s0 st) : Ext V B s0 st := by
  have hc : ∀ t, Cur st t → st.closed t = false := fun t c => by rw [h.only t c]; exact h.closed
  refine ⟨h.g, h.best, ?_, ?_, ?_, ?_, ?_, ?_, [], List.nodup_nil, ?_, by simp, by simp⟩
  · intro t k q; rw [h.heap t k q]; exact h.closed
  · intro t c q; rw [hc t c] at q; cases q
  · intro t a x c ha; rw [h.only t c, h.predA] at ha; cases ha
  · intro t c q; rw [hc t c] at q; cases q
  · intro t a x _ c ha; rw [h.only t c, h.best] at ha; cases ha
  · intro t a x c ha; rw [h.only t c, h.predA] at ha; cases ha
  · intro t
    constructor
    · intro q; cases q
    · rintro ⟨c, q⟩; rw [hc t c] at q; cases q

theorem improvePath_ext (b : Bnd G s0 V C) (hpos : ∀ s t c, (t, c) ∈ G s → 1 ≤ c) {clk : Nat → Bool} {fuel gl : Nat} {st : RStar} {r : RStar × Bool} (i : HOk G s0 st)
    (x : Ext V (C * V.length) s0 st) (hid : ∀ a b, st.env.equiv a b = true → a = b) (e : st.improvePath clk fuel s0 gl = .ok r) : Ext V (C * V.length) s0 r.1 := by
  unfold improvePath at e
  dsimp only at e
  split at e
  · cases e
  · split at e
    · cases e
    next hl =>
      cases e
      exact improveLoop_ext b hpos (touch_ok i gl) (touch_ext i x gl) (by rw [(touch_frame i gl).env]; exact hid) hl

theorem chain_noexc {st : RStar} (i : HOk G s0 st) (x : Ext V B s0 st) {gg : Nat} : ∀ {fuel s pc : Nat}, Cur st s → (s = s0 ∨ ∃ a y, st.best s = some a ∧ st.acts a = some y ∧ y.path ≠ []) →
    pc + st.g s ≤ gg → ∀ e, chain st s0 gg fuel s pc = .error e → e = .noTermination
  | 0, _, _, _, _, _, e, h => by cases h; rfl
  | fuel + 1, s, pc, c, hb, hle, e, h => by
    unfold chain at h
    split at h
    · cases h
    next a q =>
      split at h
      · cases h
      next hn =>
        rcases hb with hb | ⟨a', y, q1, q2, q3⟩
        · exact absurd hb hn
        · rw [q] at q1; cases q1
          have hm := i.best s a c q
          obtain ⟨y', w1, _, w3, _, _, w6⟩ := i.pred s a c hm
          rw [q2] at w1; cases w1
          have hg := x.gc s a y nofun c q q2 q3
          simp only [deref, q2] at h
          rw [if_neg (by omega)] at h
          rcases w6 with ⟨w6, _⟩ | ⟨_, _, _, _, _, _, w7, _⟩
          · exact absurd w6 q3
          · rw [if_neg (by omega)] at h
            split at h
            next hr =>
              cases h
              exact chain_noexc i x w3 (x.cb _ w3 (x.srcC s a y c hm q2)) (by omega) _ hr
            next => cases h

theorem current_noexc {st : RStar} (i : HOk G s0 st) (x : Ext V B s0 st) {gl : Nat} (c : Cur st gl) (hne : gl ≠ s0) {e : RErr} : st.current s0 gl ≠ .error e := by
  intro h
  have hp := current_post i c
  rw [h] at hp
  unfold current at h
  split at h
  · cases h
  next hg =>
    split at h
    next q => exact hg (i.gnone gl c hne q)
    next a q =>
      obtain ⟨y, hy, _⟩ := i.bestOk c q
      simp only [deref, hy] at h
      split at h
      · cases h
      next hpth =>
        unfold getSearchPath at h
        rw [if_neg hne] at h
        split at h
        · cases h
        · rw [q] at h
          simp only [deref, hy] at h
          rw [if_neg hpth] at h
          split at h
          next hr =>
            cases h
            have := chain_noexc i x c (.inr ⟨a, y, q, hy, hpth⟩) (by omega) _ hr
            subst this
            rcases hp with h | h | h
            · cases h
            · cases h
            · cases h.1
          next => split at h <;> cases h

theorem current_null {st : RStar} (x : Ext V B s0 st) : st.current s0 s0 = .error .nullAct := by
  unfold current
  rw [x.g0, if_neg (by decide), x.b0]

/-- no normal return -/
def Crash {α : Type} (r : Except RErr α) : Prop := ∃ e, r = .error e ∧ (e = .nullAct ∨ e = .heap .full ∨ e = .noTermination)

theorem Post.crash {α β : Type} {e : RErr} {P : α → Prop} (h : Post (.error e) P) : Crash (.error e : Except RErr β) := ⟨e, rfl, .inr h⟩

/-- with the start as goal a pass ends in a null pointer -/
theorem searchLoop_null {clk : Nat → Bool} : ∀ {fuel : Nat} {st : RStar} {sol : List Nat × Nat}, RBase st →
    (∀ s t c, (t, c) ∈ nbr st.env st.fwd s → 1 ≤ c) → Bnd (nbr st.env st.fwd) s0 V C → (∀ a b, st.env.equiv a b = true → a = b) →
    clk st.tk = false → st.epsDone = false → Crash (searchLoop clk s0 s0 fuel st sol)
  | 0, _, _, _, _, _, _, _, _ => ⟨_, rfl, .inr (.inr rfl)⟩
  | fuel + 1, st, sol, b, hpos, bd, hid, hK, hB => by
    unfold searchLoop
    rw [if_neg (by rw [hB]; simp), if_neg (by rw [hK]; simp)]
    obtain ⟨n1, n2, n3, n4, n5, n6, n7, n8, n9⟩ := nextEps_same { st with tk := st.tk + 1 }
    have b1 : RBase (nextEps { st with tk := st.tk + 1 }) :=
      ⟨by rw [n1, n2]; exact b.leC, by rw [n3, n4]; exact b.fresh, by rw [n5]; exact b.bp⟩
    have hr := reinitSpace_post (s0 := s0) (gl := s0) b1
    rw [n6, n7, n8, n9] at hr
    generalize reinitSpace (nextEps { st with tk := st.tk + 1 }) s0 s0 = R at hr
    cases R with
    | error e => exact hr.crash
    | ok st1 =>
      obtain ⟨i1, hst, e1, e2, e3, e4⟩ := hr
      dsimp only
      have hi := improvePath_post (s0 := s0) hpos (clk := clk) (fuel := fuel) (gl := s0) i1
      have xi : ∀ r, st1.improvePath clk fuel s0 s0 = .ok r → Ext V (C * V.length) s0 r.1 := fun r hr =>
        improvePath_ext bd hpos i1 (start_ext bd hst) (by rw [e1]; exact hid) hr
      generalize st1.improvePath clk fuel s0 s0 = R at hi xi
      cases R with
      | error e => exact hi.crash
      | ok r =>
        have x2 := xi r rfl
        obtain ⟨st2, ret⟩ := r
        dsimp only at x2 ⊢
        have x3 : Ext V (C * V.length) s0 (if ret then { st2 with epsSat := some st2.eps } else st2) := by
          split
          · exact ⟨x2.g0, x2.b0, x2.noc, x2.c0, x2.srcC, x2.cb, x2.gc, x2.clowB, x2.cnt⟩
          · exact x2
        rw [current_null x3]
        exact ⟨_, rfl, .inl rfl⟩

theorem searchLoop_noexc {clk : Nat → Bool} {gl : Nat} (hne : gl ≠ s0) : ∀ {fuel : Nat} {st : RStar} {sol : List Nat × Nat} {e : RErr}, RBase st →
    (∀ s t c, (t, c) ∈ nbr st.env st.fwd s → 1 ≤ c) → Bnd (nbr st.env st.fwd) s0 V C → (∀ a b, st.env.equiv a b = true → a = b) →
    searchLoop clk s0 gl fuel st sol = .error e → e = .heap .full ∨ e = .noTermination
  | 0, _, _, _, _, _, _, _, h => by cases h; exact .inr rfl
  | fuel + 1, st, sol, e, b, hpos, bd, hid, h => by
    unfold searchLoop at h
    by_cases hB : st.epsDone = true
    · rw [if_pos hB] at h; cases h
    · rw [if_neg hB] at h
      by_cases hK : clk st.tk = true
      · rw [if_pos hK] at h; cases h
      · rw [if_neg hK] at h
        obtain ⟨n1, n2, n3, n4, n5, n6, n7, n8, n9⟩ := nextEps_same { st with tk := st.tk + 1 }
        have b1 : RBase (nextEps { st with tk := st.tk + 1 }) :=
          ⟨by rw [n1, n2]; exact b.leC, by rw [n3, n4]; exact b.fresh, by rw [n5]; exact b.bp⟩
        have hr := reinitSpace_post (s0 := s0) (gl := gl) b1
        rw [n6, n7, n8, n9] at hr
        generalize reinitSpace (nextEps { st with tk := st.tk + 1 }) s0 gl = R at hr h
        cases R with
        | error e => cases h; exact hr
        | ok st1 =>
          obtain ⟨i1, hst, e1, e2, e3, e4⟩ := hr
          dsimp only at h
          have hi := improvePath_post (s0 := s0) hpos (clk := clk) (fuel := fuel) (gl := gl) i1
          have xi : ∀ r, st1.improvePath clk fuel s0 gl = .ok r → Ext V (C * V.length) s0 r.1 := fun r hr =>
            improvePath_ext bd hpos i1 (start_ext bd hst) (by rw [e1]; exact hid) hr
          generalize st1.improvePath clk fuel s0 gl = R at hi h xi
          cases R with
          | error e => cases h; exact hi
          | ok r =>
            have x2 := xi r rfl
            obtain ⟨st2, ret⟩ := r
            obtain ⟨i2, fr, cg⟩ := hi
            dsimp only at i2 fr cg h x2
            have i3 : HOk (nbr st.env st.fwd) s0 (if ret then { st2 with epsSat := some st2.eps } else st2) := by
              split
              · exact ⟨i2.hG, i2.cur0, i2.leC, i2.fresh, i2.pred, i2.best, i2.gnone, i2.bp, i2.ord, i2.inheap⟩
              · exact i2
            have x3 : Ext V (C * V.length) s0 (if ret then { st2 with epsSat := some st2.eps } else st2) := by
              split
              · exact ⟨x2.g0, x2.b0, x2.noc, x2.c0, x2.srcC, x2.cb, x2.gc, x2.clowB, x2.cnt⟩
              · exact x2
            have c3 : Cur (if ret then { st2 with epsSat := some st2.eps } else st2) gl := by split <;> exact cg
            have q1 : (if ret then { st2 with epsSat := some st2.eps } else st2).env = st.env := by split <;> exact fr.env.trans e1
            have q2 : (if ret then { st2 with epsSat := some st2.eps } else st2).fwd = st.fwd := by split <;> exact fr.fwd.trans e2
            generalize (if ret then { st2 with epsSat := some st2.eps } else st2) = st3 at *
            have hc : ∀ e, st3.current s0 gl ≠ .error e := fun e => current_noexc i3 x3 c3 hne
            generalize st3.current s0 gl = R at hc h
            cases R with
            | error e => exact absurd rfl (hc e)
            | ok cur =>
              dsimp only at h
              split at h
              · cases h
              · split at h
                · cases h
                · exact searchLoop_noexc hne i3.base (by rw [q1, q2]; exact hpos) (by rw [q1, q2]; exact bd) (by rw [q1]; exact hid) h

theorem replan_noexc {st : RStar} {clk : Nat → Bool} {fuel gl : Nat} (b : RBase st) (h1 : st.start = some s0) (h2 : st.goal = some gl) (hne : gl ≠ s0)
    (hpos : ∀ s t c, (t, c) ∈ nbr st.env st.fwd s → 1 ≤ c) (bd : Bnd (nbr st.env st.fwd) s0 V C) (hid : ∀ a b, st.env.equiv a b = true → a = b) {e : RErr}
    (h : st.replan clk fuel = .error e) : e = .heap .full ∨ e = .noTermination := by
  have e0 : st.replan clk fuel = st.search s0 gl clk fuel := by unfold replan; rw [h1, h2]
  rw [e0] at h
  unfold search at h
  dsimp only at h
  have b1 : RBase { st with eps := st.iniEps, epsSat := none, tk := 0 } := ⟨b.leC, b.fresh, b.bp⟩
  have hr : Post (if st.bReinit = true then reinitSpace { st with eps := st.iniEps, epsSat := none, tk := 0 } s0 gl else .ok { st with eps := st.iniEps, epsSat := none, tk := 0 })
      (fun st' => RBase st' ∧ st'.env = st.env ∧ st'.fwd = st.fwd) := by
    split
    · exact (reinitSpace_post b1).mono (fun a h => ⟨h.1.base, h.2.2.1, h.2.2.2.1⟩)
    · exact ⟨b1, rfl, rfl⟩
  generalize (if st.bReinit = true then reinitSpace { st with eps := st.iniEps, epsSat := none, tk := 0 } s0 gl else .ok { st with eps := st.iniEps, epsSat := none, tk := 0 }) = R at hr h
  cases R with
  | error e => cases h; exact hr
  | ok st2 =>
    obtain ⟨b2, e1, e2⟩ := hr
    dsimp only at h
    split at h
    next hs => cases h; exact searchLoop_noexc hne b2 (by rw [e1, e2]; exact hpos) (by rw [e1, e2]; exact bd) (by rw [e1]; exact hid) hs
    next => cases h

theorem replan_null {st : RStar} {clk : Nat → Bool} {fuel : Nat} (b : RBase st) (h1 : st.start = some s0) (h2 : st.goal = some s0)
    (hpos : ∀ s t c, (t, c) ∈ nbr st.env st.fwd s → 1 ≤ c) (bd : Bnd (nbr st.env st.fwd) s0 V C) (hid : ∀ a b, st.env.equiv a b = true → a = b)
    (hK : clk 0 = false) : Crash (st.replan clk fuel) := by
  have e0 : st.replan clk fuel = st.search s0 s0 clk fuel := by unfold replan; rw [h1, h2]
  rw [e0]
  unfold search
  dsimp only
  have b1 : RBase { st with eps := st.iniEps, epsSat := none, tk := 0 } := ⟨b.leC, b.fresh, b.bp⟩
  have hr : Post (if st.bReinit = true then reinitSpace { st with eps := st.iniEps, epsSat := none, tk := 0 } s0 s0 else .ok { st with eps := st.iniEps, epsSat := none, tk := 0 })
      (fun st' => RBase st' ∧ st'.env = st.env ∧ st'.fwd = st.fwd) := by
    split
    · exact (reinitSpace_post b1).mono (fun a h => ⟨h.1.base, h.2.2.1, h.2.2.2.1⟩)
    · exact ⟨b1, rfl, rfl⟩
  have ht : ∀ st', (if st.bReinit = true then reinitSpace { st with eps := st.iniEps, epsSat := none, tk := 0 } s0 s0 else .ok { st with eps := st.iniEps, epsSat := none, tk := 0 }) = .ok st' →
      st'.tk = 0 ∧ st'.epsSat = none := by
    intro st' q
    split at q
    · unfold reinitSpace at q
      dsimp only at q
      split at q
      · cases q
      · split at q
        · cases q
        · cases q
          unfold touch; split <;> exact ⟨rfl, rfl⟩
    · cases q; exact ⟨rfl, rfl⟩
  generalize (if st.bReinit = true then reinitSpace { st with eps := st.iniEps, epsSat := none, tk := 0 } s0 s0 else .ok { st with eps := st.iniEps, epsSat := none, tk := 0 }) = R at hr ht
  cases R with
  | error e => exact hr.crash
  | ok st2 =>
    obtain ⟨b2, e1, e2⟩ := hr
    obtain ⟨t1, t2⟩ := ht st2 rfl
    dsimp only
    have hn := searchLoop_null (sol := ([], INFINITECOST)) (fuel := fuel) (clk := clk) b2 (by rw [e1, e2]; exact hpos) (by rw [e1, e2]; exact bd) (by rw [e1]; exact hid)
      (by rw [t1]; exact hK) (by unfold epsDone; rw [t2])
    obtain ⟨e, h1, h2⟩ := hn
    rw [h1]
    exact ⟨e, rfl, h2⟩

end Sbpl.RStar
