import Verif.Model.GridBucket
import Verif.Proofs.GridSearchResult
import Verif.Proofs.SlidingBucket
/-! The grid search with sliding buckets, on an arbitrary graph. -/

namespace Sbpl.GridB
open GraphSpec Grid2D SBuck

/-- invariant; the edges `es` of `x` are still to be handled; `H` is the history of insertions -/
structure OkB (b : GridB) (L H : Q) (E : Nat → List (Nat × Nat)) (i0 gl N : Nat) (cl : Nat → Bool) (x : Nat) (es : List (Nat × Nat)) :
    Prop where
  r : R b.q L
  le : ∀ j, b.s.it j ≤ b.s.iter
  ent : ∀ e ∈ L, b.s.it e.1 = b.s.iter ∧ (b.s.g e.1 : Int) ≤ e.2 ∧ e.2 ≤ INF ∧ e.1 < N
  hist : ∀ e ∈ H, b.s.it e.1 = b.s.iter ∧ (b.s.g e.1 : Int) ≤ e.2 ∧ e.1 < N
  hnd : H.Nodup
  last : ∀ p, b.q.firstP ≤ p → p < b.q.firstP + b.q.n → b.q.last (b.q.idx p) + 1 ≤ (F H p).length
  clAcc : ∀ j, cl j = true → b.s.it j = b.s.iter
  gle : ∀ j, b.s.it j = b.s.iter → b.s.g j ≤ INF
  walk : ∀ j, b.s.it j = b.s.iter → b.s.g j = INF ∨ Walk E i0 j (b.s.g j)
  startAcc : b.s.it i0 = b.s.iter
  start : b.s.g i0 = 0
  goalAcc : b.s.it gl = b.s.iter
  openIn : ∀ j, b.s.it j = b.s.iter → cl j = false → b.s.g j < INF → (j, (b.s.g j : Int)) ∈ L
  opt : ∀ j, cl j = true → ∀ n, Walk E i0 j n → b.s.g j ≤ n
  rel : ∀ j, cl j = true → ∀ t c, (t, c) ∈ E j → (j = x ∧ (t, c) ∈ es) ∨ (b.s.it t = b.s.iter ∧ b.s.g t ≤ b.s.g j + c)

theorem OkB.withRel {b : GridB} {L H : Q} {E : Nat → List (Nat × Nat)} {i0 gl N x y : Nat} {cl : Nat → Bool} {es es' : List (Nat × Nat)}
    (o : OkB b L H E i0 gl N cl x es)
    (h : ∀ j, cl j = true → ∀ t c, (t, c) ∈ E j → (j = y ∧ (t, c) ∈ es') ∨ (b.s.it t = b.s.iter ∧ b.s.g t ≤ b.s.g j + c)) :
    OkB b L H E i0 gl N cl y es' :=
  ⟨o.r, o.le, o.ent, o.hist, o.hnd, o.last, o.clAcc, o.gle, o.walk, o.startAcc, o.start, o.goalAcc, o.openIn, o.opt, h⟩

/-- every walk to a state that is not closed passes the OPEN list, or is too expensive -/
theorem walk_front {b : GridB} {L H : Q} {E : Nat → List (Nat × Nat)} {i0 gl N x : Nat} {cl : Nat → Bool}
    (o : OkB b L H E i0 gl N cl x []) {t n : Nat} (w : Walk E i0 t n) :
    cl t = true ∨ INF ≤ n ∨ ∃ e ∈ L, e.2 ≤ (n : Int) := by
  have fin : ∀ t n, b.s.it t = b.s.iter → b.s.g t ≤ n → cl t = true ∨ INF ≤ n ∨ ∃ e ∈ L, e.2 ≤ (n : Int) := by
    intro t n ha hg
    by_cases q : cl t = true
    · exact .inl q
    by_cases q2 : b.s.g t < INF
    · right; right
      exact ⟨_, o.openIn t ha (by simpa using q) q2, by show (b.s.g t : Int) ≤ n; omega⟩
    · right; left; omega
  induction w with
  | nil => exact fin i0 0 o.startAcc (by rw [o.start])
  | snoc w1 hm ih =>
    rename_i b' t n c
    rcases ih with q | q | ⟨e, he, hk⟩
    · rcases o.rel b' q t c hm with ⟨_, h⟩ | ⟨h1, h2⟩
      · cases h
      · exact fin t _ h1 (by have := o.opt b' q n w1; omega)
    · right; left; omega
    · right; right
      exact ⟨e, he, by push_cast; omega⟩

/-- outcome of a computation: the property holds, or a bucket smaller than the number of cells is full -/
def GoodB {α : Type} (N bz : Nat) (r : Except GBErr α) (P : α → Prop) : Prop :=
  match r with
  | .ok a => P a
  | .error e => e = .bucket .full ∧ bz < N

theorem GoodB.imp {α : Type} {N bz : Nat} {r : Except GBErr α} {P Q : α → Prop} (h : GoodB N bz r P) (i : ∀ a, P a → Q a) :
    GoodB N bz r Q := by
  cases r with
  | ok a => exact i a h
  | error e => exact h

theorem F_nodup {H : Q} (h : H.Nodup) (p : Int) : (F H p).Nodup := by
  unfold F
  refine List.Nodup.map_on ?_ (h.filter _)
  intro a ha b hb e
  have h1 := (List.mem_filter.mp ha).2
  have h2 := (List.mem_filter.mp hb).2
  simp only [beq_iff_eq] at h1 h2
  exact Prod.ext e (h1.trans h2.symm)

/-- what an expansion preserves -/
structure FrameB (a b : GridB) : Prop where
  f : Frame a.s b.s
  n : b.q.n = a.q.n
  bsz : b.q.bsz = a.q.bsz
  firstP : b.q.firstP = a.q.firstP

theorem FrameB.refl (a : GridB) : FrameB a a := ⟨Frame.refl _, rfl, rfl, rfl⟩
theorem FrameB.trans {a b c : GridB} (x : FrameB a b) (y : FrameB b c) : FrameB a c :=
  ⟨x.f.trans y.f, y.n.trans x.n, y.bsz.trans x.bsz, y.firstP.trans x.firstP⟩

theorem relax_ok {b : GridB} {L H : Q} {E : Nat → List (Nat × Nat)} {i0 gl N x : Nat} {cl : Nat → Bool} {j c : Nat}
    {es : List (Nat × Nat)} (o : OkB b L H E i0 gl N cl x ((j, c) :: es)) (hx : cl x = true)
    (hfp : b.q.firstP = (b.s.g x : Int)) (hj : cl j = false) (hm : (j, c) ∈ E x) (hjN : j < N) (hc : c < b.q.n) :
    GoodB N b.q.bsz (b.relax x j c) fun b' => (∃ L' H', OkB b' L' H' E i0 gl N cl x es ∧ L'.length ≤ L.length + 1) ∧ FrameB b b' ∧
      b'.s.g x = b.s.g x := by
  have ne : x ≠ j := by rintro rfl; rw [hx] at hj; cases hj
  have hw := o.walk x (o.clAcc x hx)
  have hgx := o.gle x (o.clAcc x hx)
  unfold relax
  split
  next h =>
    have gnew : b.s.it j = b.s.iter → min INFINITECOST (c + b.s.g x) < b.s.g j := by
      intro ha
      rcases h with h | h
      · exact absurd ha h
      · have := Nat.min_le_right INFINITECOST (c + b.s.g x); omega
    have j0 : j = i0 → False := by
      rintro rfl
      have := gnew o.startAcc
      rw [o.start] at this; omega
    dsimp only
    generalize hv : min INFINITECOST (c + b.s.g x) = v at gnew
    have v1 : v ≤ INF := by rw [← hv]; exact Nat.min_le_left _ _
    have v2 : v ≤ c + b.s.g x := by rw [← hv]; exact Nat.min_le_right _ _
    have v3 : b.s.g x ≤ v := by rw [← hv]; exact Nat.le_min.mpr ⟨hgx, by omega⟩
    have win1 : b.q.firstP ≤ (v : Int) := by omega
    have win2 : (v : Int) < b.q.firstP + b.q.n := by omega
    -- the new entry is a new one
    have hnew : (j, (v : Int)) ∉ H := by
      intro hq
      obtain ⟨q1, q2, _⟩ := o.hist _ hq
      have := gnew q1
      simp only at q2; omega
    have hlen : (F H v).length + 1 ≤ N := by
      have nd : (j :: F H v).Nodup := List.nodup_cons.mpr ⟨fun q => hnew (mem_F.mp q), F_nodup o.hnd v⟩
      have := nodup_len_le (R := List.range N) nd (by
        intro y hy
        rw [List.mem_range]
        rcases List.mem_cons.mp hy with q | q
        · rw [q]; exact hjN
        · exact (o.hist _ (mem_F.mp q)).2.2)
      simpa using this
    have hlast := o.last v win1 win2
    have hlt := last_lt o.r win1 win2
    by_cases hfull : b.q.last (b.q.idx v) + 1 = b.q.bsz
    · rw [insert_full j win1 win2 hfull]
      refine ⟨rfl, ?_⟩
      omega
    obtain ⟨q', e, r', a1, a2, _, a4, a5, a6, _⟩ := insert_ok o.r j win1 win2 (by omega)
    rw [e]
    dsimp only
    have hidx : ∀ p, q'.idx p = b.q.idx p := by intro p; unfold idx; rw [a1, a4, a5]
    have acc : ∀ t, upd b.s.it j b.s.iter t = b.s.iter ↔ t = j ∨ b.s.it t = b.s.iter := by
      intro t
      by_cases q : t = j
      · simp [q]
      · simp [upd_other _ _ q, q]
    have go : ∀ t, t ≠ j → upd b.s.g j v t = b.s.g t := fun t q => by rw [upd_other _ _ q]
    have gj : upd b.s.g j v j = v := by rw [upd_same]
    have gle1 : ∀ t, b.s.it t = b.s.iter → upd b.s.g j v t ≤ b.s.g t := by
      intro t ht
      by_cases q : t = j
      · rw [q] at ht ⊢; rw [gj]; exact Nat.le_of_lt (gnew ht)
      · rw [go t q]
    refine ⟨⟨ins L j v, H ++ [(j, (v : Int))], ?_, by rw [ins_length]⟩, ⟨⟨rfl, rfl, rfl, rfl, rfl, rfl, rfl, rfl⟩, a1, a2, a4⟩, go x ne⟩
    constructor
    · exact r'
    · intro t
      show upd b.s.it j b.s.iter t ≤ b.s.iter
      by_cases q : t = j
      · simp [q]
      · rw [upd_other _ _ q]; exact o.le t
    · intro e he
      show upd b.s.it j b.s.iter e.1 = b.s.iter ∧ ((upd b.s.g j v e.1 : Nat) : Int) ≤ e.2 ∧ _ ∧ _
      rcases mem_ins.mp he with q | q
      · rw [q]
        exact ⟨(acc j).mpr (.inl rfl), by simp, by show (v : Int) ≤ (INF : Nat); omega, hjN⟩
      · obtain ⟨q1, q2, q3, q4⟩ := o.ent e q
        refine ⟨(acc _).mpr (.inr q1), ?_, q3, q4⟩
        have := gle1 e.1 q1; omega
    · intro e he
      show upd b.s.it j b.s.iter e.1 = b.s.iter ∧ ((upd b.s.g j v e.1 : Nat) : Int) ≤ e.2 ∧ _
      rcases List.mem_append.mp he with q | q
      · obtain ⟨q1, q2, q4⟩ := o.hist e q
        refine ⟨(acc _).mpr (.inr q1), ?_, q4⟩
        have := gle1 e.1 q1; omega
      · rw [List.mem_singleton.mp q]
        exact ⟨(acc j).mpr (.inl rfl), by simp, hjN⟩
    · rw [List.nodup_append]
      refine ⟨o.hnd, by simp, ?_⟩
      intro a ha b' hb'
      rw [List.mem_singleton] at hb'
      rintro rfl
      rw [hb'] at ha
      exact hnew ha
    · intro p p1 p2
      show q'.last (q'.idx p) + 1 ≤ _
      change q'.firstP ≤ p at p1
      change p < q'.firstP + q'.n at p2
      rw [a4] at p1 p2
      rw [a1] at p2
      rw [hidx, a6, F_append]
      by_cases q : p = v
      · rw [q, upd_same, F_cons, if_pos rfl, F_nil]; simp; omega
      · rw [upd_other _ _ (fun k => q (idx_inj p1 p2 win1 win2 k)), F_cons, if_neg (fun k => q k.symm), F_nil]
        simp only [List.append_nil]
        exact o.last p p1 p2
    · intro t ht; exact (acc t).mpr (.inr (o.clAcc t ht))
    · intro t ht
      show upd b.s.g j v t ≤ INF
      by_cases q : t = j
      · rw [q, gj]; exact v1
      · rw [go t q]; exact o.gle t (((acc t).mp ht).resolve_left q)
    · intro t ht
      show upd b.s.g j v t = INF ∨ Walk E i0 t (upd b.s.g j v t)
      by_cases q : t = j
      · rw [q, gj]
        by_cases q2 : INF ≤ c + b.s.g x
        · left; rw [← hv]; exact Nat.min_eq_left q2
        · right
          rcases hw with hw | hw
          · rw [hw] at q2; omega
          · have q3 : c + b.s.g x ≤ INFINITECOST := Nat.le_of_lt (Nat.not_le.mp q2)
            have : v = b.s.g x + c := by
              rw [← hv, Nat.min_eq_right q3]; omega
            rw [this]; exact hw.snoc hm
      · rw [go t q]; exact o.walk t (((acc t).mp ht).resolve_left q)
    · exact (acc i0).mpr (.inr o.startAcc)
    · show upd b.s.g j v i0 = 0
      rw [go i0 (fun q => j0 q.symm)]; exact o.start
    · exact (acc gl).mpr (.inr o.goalAcc)
    · intro t ht hcl hg
      show (t, ((upd b.s.g j v t : Nat) : Int)) ∈ ins L j v
      rw [mem_ins]
      by_cases q : t = j
      · rw [q, upd_same]; exact .inl rfl
      · change upd b.s.g j v t < INF at hg
        rw [go t q] at hg ⊢
        exact .inr (o.openIn t (((acc t).mp ht).resolve_left q) hcl hg)
    · intro t ht n w
      show upd b.s.g j v t ≤ n
      rw [go t (by rintro rfl; rw [ht] at hj; cases hj)]
      exact o.opt t ht n w
    · intro a ha t c' hm'
      have aj : a ≠ j := by rintro rfl; rw [ha] at hj; cases hj
      show (a = x ∧ (t, c') ∈ es) ∨ (upd b.s.it j b.s.iter t = b.s.iter ∧ upd b.s.g j v t ≤ upd b.s.g j v a + c')
      rw [go a aj]
      rcases o.rel a ha t c' hm' with ⟨h1, h2⟩ | ⟨h1, h2⟩
      · rcases List.mem_cons.mp h2 with h3 | h3
        · right
          cases h3
          refine ⟨(acc j).mpr (.inl rfl), ?_⟩
          rw [gj, h1]; omega
        · exact .inl ⟨h1, h3⟩
      · exact .inr ⟨(acc t).mpr (.inr h1), Nat.le_trans (gle1 t h1) h2⟩
  next h =>
    refine ⟨⟨L, H, ?_, by omega⟩, FrameB.refl b, rfl⟩
    have h' : b.s.it j = b.s.iter ∧ b.s.g j ≤ c + b.s.g x := by
      constructor
      · by_contra q; exact h (.inl q)
      · by_contra q; exact h (.inr (by omega))
    exact o.withRel (by
              intro a ha t c' hm'
              rcases o.rel a ha t c' hm' with ⟨h1, h2⟩ | h1
              · rcases List.mem_cons.mp h2 with h3 | h3
                · right; cases h3; rw [h1]; exact ⟨h'.1, by omega⟩
                · exact .inl ⟨h1, h3⟩
              · exact .inr h1)

/-- the edges of closed states need no handling -/
theorem skip_ok {b : GridB} {L H : Q} {E : Nat → List (Nat × Nat)} {i0 gl N x : Nat} {cl : Nat → Bool} {j c : Nat} {es : List (Nat × Nat)}
    (o : OkB b L H E i0 gl N cl x ((j, c) :: es)) (hx : cl x = true) (hj : cl j = true)
    (hm : (j, c) ∈ E x) : OkB b L H E i0 gl N cl x es :=
  o.withRel (by
      intro a ha t c' hm'
      rcases o.rel a ha t c' hm' with ⟨h1, h2⟩ | h1
      · rcases List.mem_cons.mp h2 with h3 | h3
        · right
          cases h3
          refine ⟨o.clAcc j hj, ?_⟩
          rw [h1]
          rcases o.walk x (o.clAcc x hx) with hw | hw
          · have := o.gle j (o.clAcc j hj); omega
          · exact o.opt j hj _ (hw.snoc hm)
        · exact .inl ⟨h1, h3⟩
      · exact .inr h1)

/-- the direction loop on a list of edges -/
def relaxL (cl : Nat → Bool) (i : Nat) : List (Nat × Nat) → GridB → Except GBErr GridB
  | [], s => .ok s
  | (j, c) :: es, s =>
    if cl j then relaxL cl i es s
    else
      match s.relax i j c with
      | .error e => .error e
      | .ok s1 => relaxL cl i es s1

theorem relaxL_ok {E : Nat → List (Nat × Nat)} {i0 gl N x : Nat} {cl : Nat → Bool} (hx : cl x = true)
    (es : List (Nat × Nat)) : ∀ {b : GridB} {L H : Q}, OkB b L H E i0 gl N cl x es → b.q.firstP = (b.s.g x : Int) →
    (∀ e ∈ es, e ∈ E x ∧ e.1 < N ∧ e.2 < b.q.n) →
    GoodB N b.q.bsz (relaxL cl x es b) fun b' => (∃ L' H', OkB b' L' H' E i0 gl N cl x [] ∧ L'.length ≤ L.length + es.length) ∧
      FrameB b b' := by
  induction es with
  | nil => intro b L H o _ _; exact ⟨⟨L, H, o, by simp⟩, FrameB.refl b⟩
  | cons e es ih =>
    intro b L H o hfp hm
    obtain ⟨j, c⟩ := e
    unfold relaxL
    have hm' : ∀ e ∈ es, e ∈ E x ∧ e.1 < N ∧ e.2 < b.q.n := fun e he => hm e (by simp [he])
    obtain ⟨m1, m2, m3⟩ := hm (j, c) (by simp)
    split
    next q =>
      exact (ih (skip_ok o hx q m1) hfp hm').imp (by
        rintro b' ⟨⟨L', H', o', hl⟩, f⟩
        exact ⟨⟨L', H', o', by simp; omega⟩, f⟩)
    next q =>
      have := relax_ok o hx hfp (by simpa using q) m1 m2 m3
      cases e : b.relax x j c with
      | error er => rw [e] at this; exact this
      | ok s1 =>
        rw [e] at this
        obtain ⟨⟨L1, H1, o1, l1⟩, f1, g1⟩ := this
        have h2 := ih o1 (by rw [f1.firstP, g1]; exact hfp) (by rw [f1.n]; exact hm')
        simp only
        rw [f1.bsz] at h2
        exact h2.imp (by
          rintro b' ⟨⟨L', H', o', hl⟩, f⟩
          exact ⟨⟨L', H', o', by simp; omega⟩, f1.trans f⟩)

theorem OkB.any {b : GridB} {L H : Q} {E : Nat → List (Nat × Nat)} {i0 gl N x : Nat} {cl : Nat → Bool} (o : OkB b L H E i0 gl N cl x [])
    (y : Nat) : OkB b L H E i0 gl N cl y [] :=
  o.withRel (by
      intro a ha t c hm
      rcases o.rel a ha t c hm with ⟨_, h⟩ | h
      · cases h
      · exact .inr h)

theorem R.head_le {q : SBuck} {x : Nat} {p : Int} {L : Q} (r : R q ((x, p) :: L)) : ∀ e ∈ (x, p) :: L, p ≤ e.2 := by
  obtain ⟨_, rr, _⟩ := r
  intro e he
  rcases List.mem_cons.mp he with h | h
  · rw [h]
  · exact (List.pairwise_cons.mp rr.sorted).1 e h

/-- the bound on the fill level of the buckets survives the sliding of the window -/
theorem last_slide {q q' : SBuck} {x : Nat} {p : Int} {L H : Q} (r : R q ((x, p) :: L)) (r' : R q' L) (sm : Same q q')
    (fp : q'.firstP = p) (fb : q'.firstB = q.idx p)
    (hl : ∀ p, q.firstP ≤ p → p < q.firstP + q.n → q.last (q.idx p) + 1 ≤ (F H p).length) :
    ∀ p, q'.firstP ≤ p → p < q'.firstP + q'.n → q'.last (q'.idx p) + 1 ≤ (F H p).length := by
  intro k k1 k2
  have hp : q.firstP ≤ p ∧ p < q.firstP + q.n ∧ ∀ e ∈ L, e.2 < q.firstP + q.n := by
    obtain ⟨_, rr, _⟩ := r
    have h1 := rr.inL (x, p) (by simp)
    have := rr.win1
    have := rr.win3
    simp only at h1
    refine ⟨by omega, by omega, fun e he => ?_⟩
    have := rr.inL e (by simp [he]); omega
  rw [fp] at k1
  rw [fp, sm.n] at k2
  by_cases w : k < q.firstP + q.n
  · have e1 : q'.idx k = q.idx k := by
      unfold idx
      rw [fb, fp, sm.n]
      unfold idx
      rw [Nat.mod_add_mod, show (k - q.firstP).toNat = (p - q.firstP).toNat + (k - p).toNat by omega, ← Nat.add_assoc]
    rw [e1]
    have := hl k (by omega) w
    rcases sm.last (q.idx k) with h | h
    · rw [h]; exact this
    · rw [h]; omega
  · obtain ⟨lo, rr, hid⟩ := r'
    have sl := (rr.slots k (by omega) (by rw [fp, sm.n]; exact k2)).last
    have hF : F L k = [] := by
      rw [F_eq_nil]; intro e he
      have := hp.2.2 e he; omega
    rw [hF] at sl
    have : (if k = q'.minP then lo else 0) = 0 := by
      split
      next h =>
        by_contra h3
        have := rr.zero (by omega)
        omega
      next => rfl
    rw [this] at sl
    rw [sl]
    simp

/-- an element that was closed before is dropped -/
theorem pop_skip {b : GridB} {L H : Q} {E : Nat → List (Nat × Nat)} {i0 gl N x y : Nat} {p : Int} {cl : Nat → Bool}
    (o : OkB b ((y, p) :: L) H E i0 gl N cl x []) (hy : cl y = true) {q' : SBuck} (r' : R q' L) (sm : Same b.q q')
    (fp : q'.firstP = p) (fb : q'.firstB = b.q.idx p) : OkB { b with q := q' } L H E i0 gl N cl x [] := by
  refine ⟨r', o.le, fun e he => o.ent e (by simp [he]), o.hist, o.hnd, last_slide o.r r' sm fp fb o.last, o.clAcc, o.gle, o.walk,
    o.startAcc, o.start, o.goalAcc, ?_, o.opt, o.rel⟩
  intro j h1 h2 h3
  rcases List.mem_cons.mp (o.openIn j h1 h2 h3) with q | q
  · cases q; rw [hy] at h2; cases h2
  · exact q

/-- taking the minimum off the list and closing it -/
theorem pop_ok {b : GridB} {L H : Q} {E : Nat → List (Nat × Nat)} {i0 gl N x y : Nat} {p : Int} {cl : Nat → Bool}
    (o : OkB b ((y, p) :: L) H E i0 gl N cl x []) (hy : cl y = false) {q' : SBuck} (r' : R q' L) (sm : Same b.q q')
    (fp : q'.firstP = p) (fb : q'.firstB = b.q.idx p) :
    OkB { b with q := q' } L H E i0 gl N (upd cl y true) y (E y) ∧ q'.firstP = (b.s.g y : Int) := by
  obtain ⟨y1, y2, y3, y4⟩ := o.ent (y, p) (by simp)
  simp only at y1 y2 y3 y4
  have hle := R.head_le o.r
  have hp : p = (b.s.g y : Int) := by
    by_cases hi : b.s.g y < INF
    · have := hle _ (o.openIn y y1 hy hi)
      simp only at this; omega
    · have := o.gle y y1
      omega
  refine ⟨?_, by rw [fp, hp]⟩
  have clne : ∀ t, upd cl y true t = true → t = y ∨ cl t = true := by
    intro t ht
    by_cases q : t = y
    · exact .inl q
    · rw [upd_other _ _ q] at ht; exact .inr ht
  refine ⟨r', o.le, fun e he => o.ent e (by simp [he]), o.hist, o.hnd, last_slide o.r r' sm fp fb o.last, ?_, o.gle, o.walk,
    o.startAcc, o.start, o.goalAcc, ?_, ?_, ?_⟩
  · intro t ht
    rcases clne t ht with q | q
    · rw [q]; exact y1
    · exact o.clAcc t q
  · intro t ht hcl hg
    have q : t ≠ y := by rintro rfl; simp at hcl
    rw [upd_other _ _ q] at hcl
    rcases List.mem_cons.mp (o.openIn t ht hcl hg) with h | h
    · cases h; exact absurd rfl q
    · exact h
  · intro t ht n w
    show b.s.g t ≤ n
    rcases clne t ht with q | q
    · rw [q] at w ⊢
      rcases walk_front o w with h | h | ⟨e, h1, h2⟩
      · rw [hy] at h; cases h
      · have := o.gle y y1; omega
      · have := hle e h1; omega
    · exact o.opt t q n w
  · intro a ha t c hm
    rcases clne a ha with q | q
    · left; exact ⟨q, by rw [q] at hm; exact hm⟩
    · right
      rcases o.rel a q t c hm with ⟨_, h⟩ | h
      · cases h
      · exact h

end Sbpl.GridB
