import Verif.Proofs.GridBucket
/-! Main loop of the grid search with sliding buckets. -/

namespace Sbpl.GridB
open GraphSpec Grid2D SBuck

theorem relax_frame {b b' : GridB} {i j c : Nat} (h : b.relax i j c = .ok b') : Frame b.s b'.s := by
  unfold relax at h
  split at h
  · dsimp only at h
    split at h
    · cases h; exact ⟨rfl, rfl, rfl, rfl, rfl, rfl, rfl, rfl⟩
    · cases h
  · cases h; exact Frame.refl _

theorem expandDirs_eq {grid : Int → Int → Nat} {thr i : Nat} {cl : Nat → Bool} (ds : List GDir) : ∀ {b : GridB},
    i < b.s.W * b.s.H → (∀ d ∈ ds, d ∈ gridDirs) →
    expandDirs grid thr cl i ds b = relaxL cl i (ds.filterMap (b.s.edge? grid thr i)) b := by
  induction ds with
  | nil => intro s _ _; rfl
  | cons d ds ih =>
    intro b hi hd
    have hd' : ∀ d ∈ ds, d ∈ gridDirs := fun d h => hd d (by simp [h])
    unfold expandDirs
    dsimp only
    rw [List.filterMap_cons]
    rw [moveCost_eq (hd d (by simp)) (within_id hi)]
    by_cases h2 : b.s.within (b.s.px i + d.dx) (b.s.py i + d.dy) = true
    swap
    · have : b.s.edge? grid thr i d = none := by unfold edge?; rw [if_neg (fun q => h2 q.1)]
      rw [if_pos (by simpa using h2), this]
      exact ih hi hd'
    rw [if_neg (by simp [h2])]
    by_cases h3 : b.s.moveMult grid (b.s.px i) (b.s.py i) d < thr
    · have e : b.s.edge? grid thr i d = some (b.s.sid (b.s.px i + d.dx) (b.s.py i + d.dy),
          (b.s.moveMult grid (b.s.px i) (b.s.py i) d + 1) * b.s.dist d) := by unfold edge?; rw [if_pos ⟨h2, h3⟩]
      rw [e]
      simp only [relaxL, if_pos (And.intro h2 h3)]
      split
      · exact ih hi hd'
      · cases e2 : b.relax i (b.s.sid (b.s.px i + d.dx) (b.s.py i + d.dy)) ((b.s.moveMult grid (b.s.px i) (b.s.py i) d + 1) * b.s.dist d) with
        | error er => rfl
        | ok b1 =>
          have f := relax_frame e2
          simp only
          rw [ih (by rw [f.W, f.H]; exact hi) hd']
          congr 1
          congr 1
          funext d'
          exact edge?_congr f grid thr i d'
    · have e : b.s.edge? grid thr i d = none := by unfold edge?; rw [if_neg (fun q => h3 q.2)]
      rw [e]
      simp only [if_neg (fun q : _ ∧ _ => h3 q.2)]
      split <;> exact ih hi hd'

theorem edges_length (s : Grid2D) (grid : Int → Int → Nat) (thr i : Nat) : (s.edges grid thr i).length ≤ 16 := by
  unfold edges
  exact Nat.le_trans (List.length_filterMap_le _ _) (by decide)

theorem goOn_ne {b : GridB} {L : Q} (r : R b.q L) {gl : Nat} (h : b.goOn gl = true) : L ≠ [] := by
  unfold goOn at h
  simp only [Bool.and_eq_true, Bool.not_eq_true'] at h
  intro q
  have := r.empty_iff.mpr q
  rw [h.1] at this; cases this

/-- what the main loop leaves behind -/
structure Kept (a b : GridB) : Prop where
  f : Frame a.s b.s
  n : b.q.n = a.q.n
  bsz : b.q.bsz = a.q.bsz

theorem mainLoop_ok {grid : Int → Int → Nat} {thr gl i0 N : Nat} {E : Nat → List (Nat × Nat)}
    (fuel : Nat) : ∀ {b : GridB} {cl : Nat → Bool} {L H : Q} {C : List Nat}, E = b.s.edges grid thr → N = b.s.W * b.s.H →
    (∀ i, ∀ e ∈ E i, e.2 < b.q.n) →
    OkB b L H E i0 gl N cl 0 [] →
    C.Nodup → (∀ j, j ∈ C ↔ cl j = true) → (∀ j ∈ C, j < N) → L.length + 16 * N ≤ fuel + 16 * C.length →
    GoodB N b.q.bsz (mainLoop grid thr gl fuel cl b) fun b' => Kept b b' ∧ b'.goOn gl = false ∧
      ∃ cl' L' H', OkB b' L' H' E i0 gl N cl' 0 [] := by
  induction fuel with
  | zero =>
    intro b cl L H C hE hW hEn o nd hC hlt hf
    unfold mainLoop
    split
    next q =>
      exfalso
      have hne := goOn_ne o.r q
      have hcl := nodup_len_le (R := List.range N) nd (by intro j hj; rw [List.mem_range]; exact hlt j hj)
      simp at hcl
      have := List.length_pos_iff.mpr hne
      omega
    next q => exact ⟨⟨Frame.refl _, rfl, rfl⟩, by simpa using q, cl, L, H, o⟩
  | succ fuel ih =>
    intro b cl L H C hE hW hEn o nd hC hlt hf
    unfold mainLoop
    split
    next q =>
      have hne := goOn_ne o.r q
      cases L with
      | nil => exact absurd rfl hne
      | cons e L =>
      obtain ⟨y, p⟩ := e
      obtain ⟨q', e, r', sm, fp, fb, _⟩ := SBuck.pop_ok o.r
      rw [e]
      dsimp only
      simp only [List.length_cons] at hf
      split
      next hy =>
        have h3 := ih (b := { b with q := q' }) (cl := cl) (C := C) hE hW (by rw [show ({ b with q := q' } : GridB).q.n = b.q.n from sm.n]; exact hEn)
          (pop_skip o hy r' sm fp fb) nd hC hlt (by omega)
        rw [show ({ b with q := q' } : GridB).q.bsz = b.q.bsz from sm.bsz] at h3
        exact h3.imp (by
          rintro b' ⟨k, h⟩
          exact ⟨⟨⟨k.f.W, k.f.H, k.f.ds, k.f.mm, k.f.den, k.f.iter, k.f.goal, k.f.last⟩, k.n.trans sm.n, k.bsz.trans sm.bsz⟩, h⟩)
      next hy =>
        have hy' : cl y = false := by simpa using hy
        obtain ⟨o1, hfp⟩ := pop_ok o hy' r' sm fp fb
        have yN : y < N := (o.ent (y, p) (by simp)).2.2.2
        rw [expandDirs_eq (b := { b with q := q' }) gridDirs (by show y < b.s.W * b.s.H; omega) (fun d h => h)]
        have hEi : gridDirs.filterMap (({ b with q := q' } : GridB).s.edge? grid thr y) = E y := by rw [hE]; rfl
        rw [hEi]
        have hlen : (E y).length ≤ 16 := by rw [hE]; exact edges_length _ _ _ _
        have h2 := relaxL_ok (x := y) (cl := upd cl y true) (by simp) (E y) o1 hfp (by
          intro e he
          refine ⟨he, ?_, ?_⟩
          · rw [hE] at he
            rw [hW]; exact edges_lt he
          · show e.2 < q'.n
            rw [sm.n]; exact hEn y e he)
        rw [show ({ b with q := q' } : GridB).q.bsz = b.q.bsz from sm.bsz] at h2
        cases e2 : relaxL (upd cl y true) y (E y) { b with q := q' } with
        | error er => rw [e2] at h2; exact h2
        | ok s1 =>
          rw [e2] at h2
          obtain ⟨⟨L', H', o2, hl⟩, f2⟩ := h2
          have fs : Frame b.s s1.s := ⟨f2.f.W, f2.f.H, f2.f.ds, f2.f.mm, f2.f.den, f2.f.iter, f2.f.goal, f2.f.last⟩
          have n1 : s1.q.n = b.q.n := f2.n.trans sm.n
          have z1 : s1.q.bsz = b.q.bsz := f2.bsz.trans sm.bsz
          have yC : y ∉ C := fun h => hy ((hC y).mp h)
          have h3 := ih (b := s1) (cl := upd cl y true) (C := y :: C) (by rw [hE, edges_congr fs]) (by rw [fs.W, fs.H]; exact hW)
            (by rw [n1]; exact hEn) (o2.any 0) (List.nodup_cons.mpr ⟨yC, nd⟩) (by
              intro j
              by_cases r : j = y
              · simp [r]
              · rw [upd_other _ _ r]; simp [r, hC j]) (by
              intro j hj
              rcases List.mem_cons.mp hj with r | r
              · rw [r]; exact yN
              · exact hlt j r) (by simp only [List.length_cons]; omega)
          rw [z1] at h3
          exact h3.imp (by
            rintro b' ⟨k, h⟩
            exact ⟨⟨fs.trans k.f, k.n.trans n1, k.bsz.trans z1⟩, h⟩)
    next q => exact ⟨⟨Frame.refl _, rfl, rfl⟩, by simpa using q, cl, L, H, o⟩

/-! ## the whole search -/

/-- valid between searches -/
structure Between (b : GridB) : Prop where
  r : ∃ L, R b.q L
  le : ∀ j, b.s.it j ≤ b.s.iter

/-- what a completed search leaves behind -/
structure Done (b : GridB) (E : Nat → List (Nat × Nat)) (i0 gl : Nat) : Prop where
  ok : ∃ cl L H p, OkB b L H E i0 gl (b.s.W * b.s.H) cl 0 [] ∧
    ((L = [] ∧ b.s.largest = INF) ∨ ∃ y L', L = (y, p) :: L' ∧ b.s.largest = b.s.g y ∧
      (b.s.g gl * b.s.last.factor.2 : Nat) ≤ b.s.last.factor.1 * p)

theorem getMinKey_le {q : SBuck} {L : Q} (r : R q L) : ∀ e ∈ L, q.getMinKey ≤ e.2 := by
  obtain ⟨_, rr, _⟩ := r
  exact fun e he => (rr.inL e he).1

theorem finish_ok {b : GridB} {L H : Q} {E : Nat → List (Nat × Nat)} {i0 gl : Nat} {cl : Nat → Bool}
    (o : OkB b L H E i0 gl (b.s.W * b.s.H) cl 0 []) (hst : b.goOn gl = false) :
    ∃ b', b.finish = .ok b' ∧ Frame b.s b'.s ∧ b'.q.n = b.q.n ∧ b'.q.bsz = b.q.bsz ∧ Done b' E i0 gl := by
  unfold finish
  split
  next h =>
    have hL := o.r.empty_iff.mp h
    subst hL
    refine ⟨_, rfl, ⟨rfl, rfl, rfl, rfl, rfl, rfl, rfl, rfl⟩, rfl, rfl, ⟨cl, [], H, 0, ?_, .inl ⟨rfl, rfl⟩⟩⟩
    exact ⟨o.r, o.le, o.ent, o.hist, o.hnd, o.last, o.clAcc, o.gle, o.walk, o.startAcc, o.start, o.goalAcc, o.openIn, o.opt, o.rel⟩
  next h =>
    obtain ⟨q', e, r', sm, fp, fb, _, _⟩ := SBuck.getMin_ok o.r
    cases L with
    | nil => exact absurd (o.r.empty_iff.mpr rfl) h
    | cons e0 L =>
      obtain ⟨y, p⟩ := e0
      rw [e]
      dsimp only [List.head?_cons, Option.map_some]
      refine ⟨_, rfl, ⟨rfl, rfl, rfl, rfl, rfl, rfl, rfl, rfl⟩, sm.n, sm.bsz, ⟨cl, (y, p) :: L, H, p, ?_, .inr ⟨y, L, rfl, rfl, ?_⟩⟩⟩
      · refine ⟨r', o.le, o.ent, o.hist, o.hnd, ?_, o.clAcc, o.gle, o.walk, o.startAcc, o.start, o.goalAcc, o.openIn, o.opt, o.rel⟩
        intro k k1 k2
        have hidx : q'.idx k = b.q.idx k := by unfold idx; rw [fb, fp, sm.n]
        show q'.last (q'.idx k) + 1 ≤ _
        rw [hidx]
        change q'.firstP ≤ k at k1
        change k < q'.firstP + q'.n at k2
        rw [fp] at k1 k2
        rw [sm.n] at k2
        have := o.last k k1 k2
        rcases sm.last (b.q.idx k) with h | h
        · rw [h]; exact this
        · rw [h]; omega
      · show ((b.s.g gl * b.s.last.factor.2 : Nat) : Int) ≤ b.s.last.factor.1 * p
        unfold goOn at hst
        have h' : b.q.isEmpty = false := by simpa using h
        rw [h'] at hst
        simp only [Bool.not_false, Bool.true_and, decide_eq_false_iff_not, not_lt] at hst
        refine le_trans hst ?_
        exact Int.mul_le_mul_of_nonneg_left (getMinKey_le o.r (y, p) (by simp)) (Int.natCast_nonneg _)

theorem searchB_ok {b : GridB} (hb : Between b) (grid : Int → Int → Nat) (thr : Nat) (st gl : Int × Int) (t : Term)
    (hEn : ∀ i, ∀ e ∈ b.s.edges grid thr i, e.2 < b.q.n) :
    GoodB (b.s.W * b.s.H) b.q.bsz (b.searchB grid thr st gl t) fun r => Between r.2 ∧ Keeps b.s r.2.s ∧ r.2.q.n = b.q.n ∧
      r.2.q.bsz = b.q.bsz ∧ r.2.s.goal = gl ∧
      (r.1 = true ↔ b.s.within st.1 st.2 = true ∧ b.s.within gl.1 gl.2 = true) ∧
      (r.1 = true → r.2.s.last = t ∧ Done r.2 (b.s.edges grid thr) (b.s.sid st.1 st.2) (b.s.sid gl.1 gl.2)) := by
  obtain ⟨⟨L0, r0⟩, hle⟩ := hb
  unfold searchB
  dsimp only
  split
  next h =>
    refine ⟨⟨⟨L0, r0⟩, fun j => Nat.le_succ_of_le (hle j)⟩, ⟨rfl, rfl, rfl, rfl, rfl⟩, rfl, rfl, rfl, ?_, by simp⟩
    simp only [Bool.false_eq_true, false_iff]
    rintro ⟨a1, a2⟩
    rcases h with h | h
    · change b.s.within st.1 st.2 = false at h; rw [a1] at h; cases h
    · change b.s.within gl.1 gl.2 = false at h; rw [a2] at h; cases h
  next h =>
    have hst : b.s.within st.1 st.2 = true := by
      by_contra q; exact h (.inl (Bool.eq_false_iff.mpr q))
    have hgl : b.s.within gl.1 gl.2 = true := by
      by_contra q; exact h (.inr (Bool.eq_false_iff.mpr q))
    have i0lt := sid_lt hst
    have iglt := sid_lt hgl
    generalize hi0 : sid { b.s with iter := b.s.iter + 1, goal := gl } st.1 st.2 = i0
    generalize hig : sid { b.s with iter := b.s.iter + 1, goal := gl } gl.1 gl.2 = ig
    change b.s.sid st.1 st.2 = i0 at hi0
    change b.s.sid gl.1 gl.2 = ig at hig
    rw [hi0] at i0lt ⊢
    rw [hig] at iglt ⊢
    have rs := reset_ok r0
    have n0 : 0 < b.q.n := by obtain ⟨_, rr, _⟩ := r0; exact rr.n0
    have z0 : 0 < b.q.bsz := by obtain ⟨_, rr, _⟩ := r0; exact rr.bsz0
    obtain ⟨q', e, r', a1, a2, _, a4, a5, a6, _⟩ := insert_ok rs i0 (p := 0) (le_refl _) (by show (0 : Int) < 0 + b.q.n; omega)
      (by show (-1 : Int) + 1 < b.q.bsz; omega)
    rw [e]
    dsimp only
    generalize hs3 : ({ b.s with iter := b.s.iter + 1, goal := gl, last := t,
                                 g := upd (upd (upd b.s.g i0 INFINITECOST) ig INFINITECOST) i0 0,
                                 it := upd (upd b.s.it i0 (b.s.iter + 1)) ig (b.s.iter + 1) } : Grid2D) = s3
    have it3 : s3.iter = b.s.iter + 1 := by subst hs3; rfl
    have acc3 : ∀ j, s3.it j = s3.iter ↔ j = i0 ∨ j = ig := by
      intro j; subst hs3
      have := hle j
      show upd (upd b.s.it i0 (b.s.iter + 1)) ig (b.s.iter + 1) j = b.s.iter + 1 ↔ _
      simp only [upd]
      split
      · simp [*]
      · split
        · simp [*]
        · constructor
          · intro q; omega
          · rintro (q | q) <;> contradiction
    have g3 : ∀ j, j = i0 ∨ j = ig → s3.g j = if j = i0 then 0 else INF := by
      intro j hj; subst hs3
      show upd (upd (upd b.s.g i0 INFINITECOST) ig INFINITECOST) i0 0 j = _
      simp only [upd]
      split
      · rfl
      · rcases hj with q | q
        · contradiction
        · simp [q]
    have le3 : ∀ j, s3.it j ≤ s3.iter := by
      intro j; subst hs3
      have := hle j
      show upd (upd b.s.it i0 (b.s.iter + 1)) ig (b.s.iter + 1) j ≤ b.s.iter + 1
      simp only [upd]; split
      · exact Nat.le_refl _
      · split <;> omega
    have k3 : Keeps b.s s3 := by subst hs3; exact ⟨rfl, rfl, rfl, rfl, rfl⟩
    have gl3 : s3.goal = gl := by subst hs3; rfl
    have la3 : s3.last = t := by subst hs3; rfl
    have ed3 : s3.edges grid thr = b.s.edges grid thr := by subst hs3; rfl
    clear hs3
    have hins : ins [] i0 0 = [(i0, (0 : Int))] := rfl
    rw [hins] at r'
    have o : OkB { s := s3, q := q' } [(i0, 0)] [(i0, 0)] (b.s.edges grid thr) i0 ig (b.s.W * b.s.H) (fun _ => false) 0 [] := by
      have i0acc := (acc3 i0).mpr (.inl rfl)
      have g00 : s3.g i0 = 0 := by rw [g3 i0 (.inl rfl), if_pos rfl]
      constructor
      · exact r'
      · exact le3
      · intro e he
        rw [List.mem_singleton.mp he]
        exact ⟨i0acc, by show ((s3.g i0 : Nat) : Int) ≤ 0; omega, by show (0 : Int) ≤ _; exact Int.natCast_nonneg _, i0lt⟩
      · intro e he
        rw [List.mem_singleton.mp he]
        exact ⟨i0acc, by show ((s3.g i0 : Nat) : Int) ≤ 0; omega, i0lt⟩
      · simp
      · intro p p1 p2
        show q'.last (q'.idx p) + 1 ≤ _
        change q'.firstP ≤ p at p1
        change p < q'.firstP + q'.n at p2
        rw [a4] at p1 p2
        rw [a1] at p2
        have hidx : q'.idx p = b.q.reset.idx p := by unfold idx; rw [a1, a4, a5]
        rw [hidx, a6]
        by_cases hp : p = 0
        · rw [hp, upd_same]; show (-1 : Int) + 1 + 1 ≤ _; rw [F_cons, if_pos rfl, F_nil]; simp
        · rw [upd_other _ _ (fun k => hp (idx_inj p1 p2 (le_refl _) (by show (0 : Int) < 0 + b.q.n; omega) k))]
          show (-1 : Int) + 1 ≤ _; omega
      · intro j hj; cases hj
      · intro j hj
        show s3.g j ≤ INF
        rw [g3 j ((acc3 j).mp hj)]; split
        · exact Nat.zero_le _
        · exact Nat.le_refl _
      · intro j hj
        show s3.g j = INF ∨ Walk _ i0 j (s3.g j)
        rw [g3 j ((acc3 j).mp hj)]; split
        next q => rw [q]; exact .inr .nil
        next q => exact .inl rfl
      · exact i0acc
      · exact g00
      · exact (acc3 ig).mpr (.inr rfl)
      · intro j hj _ hg
        show (j, ((s3.g j : Nat) : Int)) ∈ _
        change s3.g j < INF at hg
        rw [g3 j ((acc3 j).mp hj)] at hg ⊢
        split at hg
        next q => rw [q]; simp
        next q => omega
      · intro j hj; cases hj
      · intro j hj; cases hj
    have h4 := mainLoop_ok (grid := grid) (thr := thr) (gl := ig) (i0 := i0) (N := b.s.W * b.s.H) (E := b.s.edges grid thr)
      (16 * (b.s.W * b.s.H) + 1) (b := { s := s3, q := q' }) (cl := fun _ => false) (C := []) (by rw [← ed3])
      (by show _ = s3.W * s3.H; rw [k3.W, k3.H]) (by intro i e he; show e.2 < q'.n; rw [a1]; exact hEn i e he) o List.nodup_nil (by simp) (by simp)
      (by simp only [List.length_cons, List.length_nil]; omega)
    rw [show ({ s := s3, q := q' } : GridB).q.bsz = b.q.bsz from a2] at h4
    cases e5 : mainLoop grid thr ig (16 * (b.s.W * b.s.H) + 1) (fun _ => false) { s := s3, q := q' } with
    | error er => rw [e5] at h4; exact h4
    | ok s4 =>
      rw [e5] at h4
      obtain ⟨k4, st4, cl, L4, H4, o4⟩ := h4
      have f4 := k4.f
      have kk : Keeps b.s s4.s := ⟨f4.W.trans k3.W, f4.H.trans k3.H, f4.ds.trans k3.ds, f4.mm.trans k3.mm, f4.den.trans k3.den⟩
      have hN : s4.s.W * s4.s.H = b.s.W * b.s.H := by rw [kk.W, kk.H]
      rw [← hN] at o4
      obtain ⟨b5, e6, f5, n5, z5, dn⟩ := finish_ok o4 st4
      simp only
      rw [e6]
      obtain ⟨cl5, L5, H5, p5, o5, _⟩ := dn.ok
      refine ⟨⟨⟨L5, o5.r⟩, o5.le⟩, ⟨f5.W.trans kk.W, f5.H.trans kk.H, f5.ds.trans kk.ds, f5.mm.trans kk.mm, f5.den.trans kk.den⟩, ?_, ?_,
        f5.goal.trans (f4.goal.trans gl3), by simp [hst, hgl], fun _ => ⟨f5.last.trans (f4.last.trans la3), dn⟩⟩
      · show b5.q.n = b.q.n; rw [n5, k4.n]; exact a1
      · show b5.q.bsz = b.q.bsz; rw [z5, k4.bsz]; exact a2

end Sbpl.GridB
