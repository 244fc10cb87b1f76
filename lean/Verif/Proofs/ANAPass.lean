import Verif.Proofs.ANALoop
/-! ANA*: the pruning/re-keying loop and one pass of Search. -/

namespace Sbpl.ANA
open GraphSpec Heap

theorem eLeOne_iff (st : ANA) (s : Nat) : st.eLeOne s = true ↔ st.bestG ≤ st.g s + st.h s := by
  unfold eLeOne
  split
  next q => rw [q]; simp
  next q => simp only [decide_eq_true_eq]; omega

/-- slots before `j` have been processed -/
def Done (st : ANA) (j : Nat) (ep : Nat × Nat) : Prop :=
  ∀ i, 1 ≤ i → i < j → i ≤ st.heap.size → st.eLeOne (st.heap.arr i).st = false ∧
    (st.heap.arr i).key = st.keyFor (st.heap.arr i).st ∧
    st.bestG * ep.2 ≤ ep.1 * (st.g (st.heap.arr i).st + st.h (st.heap.arr i).st)

structure RekeyPost (st r : ANA) (j : Nat) (ep : Nat × Nat) : Prop where
  bp : BP r.heap
  same : ∃ h e, r = { st with heap := h, epsSat := e }
  size : r.heap.size ≤ st.heap.size
  sub : ∀ u, r.Opn u → st.Opn u
  sup : ∀ u, st.Opn u → r.Opn u ∨ st.bestG ≤ st.g u + st.h u
  keys : Keys r
  keep : ∀ u, r.Opn u → st.g u + st.h u < st.bestG
  eps : (st.heap.size < j ∧ r = st) ∨
    (j ≤ st.heap.size ∧ 1 ≤ r.epsSat.1 ∧ r.epsSat.2 ≤ r.epsSat.1 ∧
     (∀ u, r.Opn u → st.bestG * r.epsSat.2 ≤ r.epsSat.1 * (st.g u + st.h u)) ∧
     (r.epsSat = ep ∨ ∃ u, st.Opn u ∧ r.epsSat = (st.bestG, st.g u + st.h u) ∧ st.g u + st.h u < st.bestG))

theorem frac_up {G a b f0 f : Nat} (h1 : G * b > a * f0) (h2 : G * b ≤ a * f) : G * f0 ≤ G * f := by
  have : a * f0 < a * f := by omega
  have := Nat.lt_of_mul_lt_mul_left this
  exact Nat.mul_le_mul_left _ (by omega)

theorem rekeyLoop_spec (fuel : Nat) : ∀ {st : ANA} {j : Nat} {ep : Nat × Nat}, BP st.heap → 1 ≤ j →
    st.heap.size < fuel + j → Done st j ep → 1 ≤ ep.1 → ep.2 ≤ ep.1 →
    ∃ r, rekeyLoop fuel st j ep = .ok r ∧ RekeyPost st r j ep := by
  have fin : ∀ {st : ANA} {j : Nat} {ep : Nat × Nat}, BP st.heap → st.heap.size < j → Done st j ep →
      RekeyPost st st j ep := by
    intro st j ep bp hj hd
    refine ⟨bp, ⟨st.heap, st.epsSat, rfl⟩, Nat.le_refl _, fun _ h => h, fun _ h => .inl h, ?_, ?_, .inl ⟨hj, rfl⟩⟩
    · intro s k h
      obtain ⟨i, i1, i2, i3, i4⟩ := slot_of_keyOf bp h
      have := (hd i i1 (by omega) i2).2.1
      rw [i3] at this
      rw [← i4]; exact this
    · intro u hu
      cases e : keyOf st.heap u with
      | none => exact absurd e hu
      | some k =>
        obtain ⟨i, i1, i2, i3, i4⟩ := slot_of_keyOf bp e
        have := (hd i i1 (by omega) i2).1
        rw [i3] at this
        by_contra q
        have := (eLeOne_iff st u).mpr (by omega)
        simp_all
  induction fuel with
  | zero =>
    intro st j ep bp j1 hf hd e1 e2
    exact ⟨st, rfl, fin bp (by omega) hd⟩
  | succ fuel ih =>
    intro st j ep bp j1 hf hd e1 e2
    unfold rekeyLoop
    by_cases hj : j ≤ st.heap.size
    rotate_left
    · rw [if_neg hj]
      exact ⟨st, rfl, fin bp (by omega) hd⟩
    rw [if_pos hj]
    dsimp only
    generalize hs : (st.heap.arr j).st = s
    have idx : st.heap.idx s = j := by rw [← hs]; exact bp.fwd j j1 hj
    have idx0 : st.heap.idx s ≠ 0 := by omega
    have so : keyOf st.heap s ≠ none := fun q => idx0 (keyOf_none.mp q)
    generalize hep : (if st.bestG * ep.2 > ep.1 * (st.g s + st.h s) then (st.bestG, st.g s + st.h s) else ep) = ep1
    have ep1a : 1 ≤ ep1.1 ∧ ep1.2 ≤ ep1.1 := by
      rw [← hep]; split
      next q =>
        have hG : 1 ≤ st.bestG := by
          rcases Nat.eq_zero_or_pos st.bestG with z | z
          · rw [z] at q; simp at q
          · exact z
        refine ⟨hG, ?_⟩
        have : ep.1 * (st.g s + st.h s) < ep.1 * st.bestG := by
          refine Nat.lt_of_lt_of_le q ?_
          rw [Nat.mul_comm]; exact Nat.mul_le_mul_right _ e2
        exact Nat.le_of_lt (Nat.lt_of_mul_lt_mul_left this)
      next q => exact ⟨e1, e2⟩
    have ep1up : ∀ f, st.bestG * ep.2 ≤ ep.1 * f → st.bestG * ep1.2 ≤ ep1.1 * f := by
      intro f hf; rw [← hep]; split
      next q => exact frac_up q hf
      next q => exact hf
    have ep1s : st.bestG * ep1.2 ≤ ep1.1 * (st.g s + st.h s) := by
      rw [← hep]; split
      next q => exact Nat.le_refl _
      next q => omega
    have ep1w : ep1 = ep ∨ ep1 = (st.bestG, st.g s + st.h s) ∧ st.g s + st.h s < st.bestG := by
      rw [← hep]; split
      next q =>
        right
        refine ⟨rfl, ?_⟩
        have : ep.1 * (st.g s + st.h s) < ep.1 * st.bestG := by
          refine Nat.lt_of_lt_of_le q ?_
          rw [Nat.mul_comm]; exact Nat.mul_le_mul_right _ e2
        exact Nat.lt_of_mul_lt_mul_left this
      next q => exact .inl rfl
    cases hl : st.eLeOne s
    · -- kept, re-keyed
      simp only [Bool.false_eq_true, if_false]
      cases e : st.heap.updateUnsafe s (st.keyFor s) with
      | error x =>
        unfold updateUnsafe at e; rw [if_neg idx0] at e; split at e <;> cases e
      | ok h =>
        obtain ⟨u1, u2, u3, _, _⟩ := updateUnsafe_spec bp e
        have arrE : ∀ i, i ≠ j → h.arr i = st.heap.arr i := by
          intro i q
          unfold updateUnsafe at e; rw [if_neg idx0] at e
          split at e
          · cases e; exact upd_other _ _ (by rw [idx]; exact q)
          · cases e; rfl
        have arrJ : (h.arr j).st = s ∧ (h.arr j).key = st.keyFor s := by
          unfold updateUnsafe at e; rw [if_neg idx0] at e
          rw [idx] at e
          split at e
          · cases e; simp only [upd_same]; exact ⟨hs, trivial⟩
          next q => cases e; exact ⟨hs, by simpa using q⟩
        have opnE : ∀ u, keyOf h u ≠ none ↔ st.Opn u := by
          intro u; rw [u2]
          by_cases q : u = s
          · subst q; simp [so, Opn]
          · rw [upd_other _ _ q]; exact Iff.rfl
        simp only
        obtain ⟨r, hr, rp⟩ := ih (st := { st with heap := h, epsSat := ep1 }) (j := j + 1) (ep := ep1) u1 (by omega)
          (by show h.size < _; omega) (by
            intro i i1 i2 i3
            show st.eLeOne (h.arr i).st = false ∧ (h.arr i).key = st.keyFor (h.arr i).st ∧ _
            by_cases q : i = j
            · subst q
              rw [arrJ.1, arrJ.2]
              exact ⟨hl, rfl, ep1s⟩
            · rw [arrE i q]
              obtain ⟨d1, d2, d3⟩ := hd i i1 (by omega) (by change i ≤ h.size at i3; omega)
              exact ⟨d1, d2, ep1up _ d3⟩) ep1a.1 ep1a.2
        refine ⟨r, hr, rp.bp, ?_, ?_, ?_, ?_, rp.keys, rp.keep, ?_⟩
        · obtain ⟨h', e', q⟩ := rp.same; exact ⟨h', e', q⟩
        · have : r.heap.size ≤ h.size := rp.size
          omega
        · intro u hu; exact (opnE u).mp (rp.sub u hu)
        · intro u hu; exact rp.sup u ((opnE u).mpr hu)
        · right
          refine ⟨hj, ?_⟩
          rcases rp.eps with ⟨q1, q2⟩ | ⟨q1, q2, q3, q4, q5⟩
          · refine ⟨by rw [q2]; exact ep1a.1, by rw [q2]; exact ep1a.2, ?_, ?_⟩
            · intro u hu
              have hu' := (rp.sub u hu)
              cases e' : keyOf h u with
              | none => exact absurd e' hu'
              | some k =>
                obtain ⟨i, i1, i2, i3, i4⟩ := slot_of_keyOf u1 e'
                rw [q2]
                show st.bestG * ep1.2 ≤ ep1.1 * _
                by_cases q : i = j
                · subst q; rw [arrJ.1] at i3; subst i3; exact ep1s
                · rw [arrE i q] at i3
                  have hi : i < j := by change h.size < j + 1 at q1; omega
                  have := (hd i i1 hi (by omega)).2.2
                  rw [i3] at this
                  exact ep1up _ this
            · rw [q2]
              show ep1 = ep ∨ _
              rcases ep1w with z | z
              · exact .inl z
              · exact .inr ⟨s, so, z⟩
          · refine ⟨q2, q3, q4, ?_⟩
            rcases q5 with z | ⟨u, z1, z2⟩
            · rcases ep1w with y | y
              · exact .inl (z.trans y)
              · exact .inr ⟨s, so, z.trans y.1, y.2⟩
            · exact .inr ⟨u, (opnE u).mp z1, z2⟩
    · -- deleted
      simp only [if_true]
      have hle := (eLeOne_iff st s).mp hl
      cases e : st.heap.deleteUnsafe s with
      | error x => unfold deleteUnsafe at e; rw [if_neg idx0] at e; cases e
      | ok h =>
        obtain ⟨u1, u2, u3, _, _⟩ := deleteUnsafe_spec bp e
        have arrE : ∀ i, i ≠ j → h.arr i = st.heap.arr i := by
          intro i q
          unfold deleteUnsafe at e; rw [if_neg idx0] at e
          cases e; exact upd_other _ _ (by rw [idx]; exact q)
        have opnE : ∀ u, keyOf h u ≠ none ↔ u ≠ s ∧ st.Opn u := by
          intro u; rw [u2]
          by_cases q : u = s
          · subst q; simp
          · rw [upd_other _ _ q]; simp [q, Opn]
        simp only
        obtain ⟨r, hr, rp⟩ := ih (st := { st with heap := h, epsSat := ep1 }) (j := j) (ep := ep1) u1 (by omega)
          (by show h.size < _; omega) (by
            intro i i1 i2 i3
            show st.eLeOne (h.arr i).st = false ∧ (h.arr i).key = st.keyFor (h.arr i).st ∧ _
            rw [arrE i (by omega)]
            obtain ⟨d1, d2, d3⟩ := hd i i1 (by omega) (by change i ≤ h.size at i3; omega)
            exact ⟨d1, d2, ep1up _ d3⟩) ep1a.1 ep1a.2
        refine ⟨r, hr, rp.bp, ?_, ?_, ?_, ?_, rp.keys, rp.keep, ?_⟩
        · obtain ⟨h', e', q⟩ := rp.same; exact ⟨h', e', q⟩
        · have : r.heap.size ≤ h.size := rp.size
          omega
        · intro u hu; exact ((opnE u).mp (rp.sub u hu)).2
        · intro u hu
          by_cases q : u = s
          · subst q; exact .inr hle
          · exact rp.sup u ((opnE u).mpr ⟨q, hu⟩)
        · right
          refine ⟨hj, ?_⟩
          rcases rp.eps with ⟨q1, q2⟩ | ⟨q1, q2, q3, q4, q5⟩
          · refine ⟨by rw [q2]; exact ep1a.1, by rw [q2]; exact ep1a.2, ?_, ?_⟩
            · intro u hu
              have hu' := (rp.sub u hu)
              cases e' : keyOf h u with
              | none => exact absurd e' hu'
              | some k =>
                obtain ⟨i, i1, i2, i3, i4⟩ := slot_of_keyOf u1 e'
                rw [q2]
                show st.bestG * ep1.2 ≤ ep1.1 * _
                have hi : i < j := by change h.size < j at q1; omega
                rw [arrE i (by omega)] at i3
                have := (hd i i1 hi (by omega)).2.2
                rw [i3] at this
                exact ep1up _ this
            · rw [q2]
              show ep1 = ep ∨ _
              rcases ep1w with z | z
              · exact .inl z
              · exact .inr ⟨s, so, z⟩
          · refine ⟨q2, q3, q4, ?_⟩
            rcases q5 with z | ⟨u, z1, z2⟩
            · rcases ep1w with y | y
              · exact .inl (z.trans y)
              · exact .inr ⟨s, so, z.trans y.1, y.2⟩
            · exact .inr ⟨u, ((opnE u).mp z1).2, z2⟩

/-- the heuristic never exceeds the cost of a walk to the goal -/
def Adm (st : ANA) (gl : Nat) : Prop := ∀ s n, Walk st.base s gl n → st.heur gl s ≤ n

theorem walk_trans {succ : Nat → List (Nat × Nat)} {a b c n m : Nat} (w : Walk succ a b n) (w' : Walk succ b c m) :
    Walk succ a c (n + m) := by
  induction w' with
  | nil => exact w
  | snoc _ hm ih => rw [← Nat.add_assoc]; exact ih.snoc hm

/-- Every walk to the goal is covered: G is at most its cost, or some state of OPEN has f at most its cost. -/
theorem walk_front {st : ANA} {s0 gl n : Nat} (co : Core st s0) (l : Live st gl 0 []) (adm : Adm st gl)
    (w : Walk st.base s0 gl n) : st.bestG ≤ n ∨ ∃ o, st.Opn o ∧ st.g o + st.heur gl o ≤ n := by
  have main : ∀ {u n}, Walk st.base s0 u n →
      (∃ o k r, k + r ≤ n ∧ Walk st.base o u r ∧ ((st.Opn o ∧ st.g o ≤ k) ∨ st.bestG ≤ k + st.heur gl o)) ∨ st.Ve u ≤ n := by
    have sub : ∀ {t n}, st.Ge t ≤ n →
        (∃ o k r, k + r ≤ n ∧ Walk st.base o t r ∧ ((st.Opn o ∧ st.g o ≤ k) ∨ st.bestG ≤ k + st.heur gl o)) ∨ st.Ve t ≤ n := by
      intro t n hle
      by_cases a : st.acc t
      · rw [Ge_acc a] at hle
        by_cases lt : st.g t < st.v t
        · rcases l.pend t a lt with q | q
          · exact .inl ⟨t, n, 0, by omega, .nil, .inl ⟨q, hle⟩⟩
          · exact .inl ⟨t, n, 0, by omega, .nil, .inr (by omega)⟩
        · right; rw [Ve_acc a]; omega
      · right; rw [Ge_stale a] at hle; rw [Ve_stale a]; exact hle
    intro u n w
    induction w with
    | nil => exact sub (by rw [Ge_acc co.startAcc, co.startG])
    | @snoc b t n c w hm ih =>
      rcases ih with ⟨o, k, r, h1, h2, h3⟩ | h
      · exact .inl ⟨o, k, r + c, by omega, h2.snoc hm, h3⟩
      · rcases l.edge b t c hm with q | q | q
        · simp at q
        · exact sub (by omega)
        · exact .inl ⟨t, n + c, 0, by omega, .nil, .inr (by omega)⟩
  rcases main w with ⟨o, k, r, h1, h2, h3⟩ | h
  · have := adm o r h2
    rcases h3 with ⟨h3, h4⟩ | h3
    · exact .inr ⟨o, h3, by omega⟩
    · exact .inl (by omega)
  · rw [l.vGoal] at h
    exact .inl (Nat.le_trans co.bestLe h)

structure PassPost (st : ANA) (s0 gl b : Nat) (r : ANA) (tr : List Nat) : Prop where
  frame : Frame st r
  data : Data r
  core : Core r s0
  live : Live st gl 0 [] → Live r gl 0 []
  accG : r.acc gl
  keys : Keys r
  keep : ∀ u, r.Opn u → r.g u + r.h u < r.bestG
  best : (b = 0 ∨ st.heap.size = 0) ∨ r.bestG = r.g gl
  bestM : Live st gl 0 [] → r.bestG ≤ st.bestG
  noGoal : gl ∉ tr
  rch : Pos st → ∀ s ∈ tr, ∃ k, Walk st.base s0 s k
  eps : (r.heap.size = 0 ∧ r.epsSat = st.epsSat ∧ (Live st gl 0 [] → Adm st gl → ∀ n, Walk st.base s0 gl n → r.bestG ≤ n)) ∨
    (1 ≤ r.epsSat.1 ∧ r.epsSat.2 ≤ r.epsSat.1 ∧
      (∀ u, r.Opn u → r.bestG * r.epsSat.2 ≤ r.epsSat.1 * (r.g u + r.h u)) ∧
      (Live st gl 0 [] → Adm st gl → ∀ n, Walk st.base s0 gl n → r.bestG * r.epsSat.2 ≤ r.epsSat.1 * n) ∧
      (HOk st gl → Cons st gl → ∀ L, (∀ o, st.Opn o → L ≤ st.g o + st.h o) →
        r.epsSat = (1, 1) ∨ ∃ f, L ≤ f ∧ f < r.bestG ∧ r.epsSat = (r.bestG, f)))
  fin : Pos st → ∀ U : List Nat, U.Nodup → (∀ u k, Walk st.base s0 u k → u ∈ U) →
    (r.heap.size = 0 ∨ r.Ge gl < INF ∨ mu U r + b ≤ mu U st) ∧
    mu U r ≤ mu U st ∧ (b ≠ 0 → st.heap.size ≠ 0 → mu U r + 1 ≤ mu U st)

theorem pass_spec {st : ANA} {s0 gl : Nat} (b : Nat) (d : Data st) (c : Core st s0) (hn : NbrOk st gl)
    (hg : st.goal = some gl) : OkOr (st.pass b) (fun r => PassPost st s0 gl b r.1 r.2) := by
  have d0 := touch_data d gl
  have c0 := touch_core d c gl
  have fr0 := touch_frame d gl
  have ag0 := touch_acc d gl
  obtain ⟨e1, e3, _, _, e5, _, e7, e8⟩ := touch_same d gl
  have lp := improveLoop_spec b d0 c0 (hn.frame fr0) ag0 (by rw [e5]; exact hg)
  unfold pass improvePath
  rw [hg]
  simp only
  cases e : improveLoop gl b (st.touch gl) with
  | error x => rw [e] at lp; exact lp
  | ok q =>
    obtain ⟨x, tr⟩ := q
    rw [e] at lp
    have lp : LoopPost (st.touch gl) s0 gl b x tr := lp
    simp only
    obtain ⟨y, hy, rp⟩ := rekeyLoop_spec x.heap.size (st := x) (j := 1) (ep := (1, 1)) lp.data.bp (by omega) (by omega)
      (by intro i i1 i2; omega) (by simp) (by simp)
    rw [hy]
    simp only
    obtain ⟨h, es, hyx⟩ := rp.same
    obtain ⟨mh1, mh2, mh3⟩ := makeHeap_spec rp.bp
    generalize hr : ({ y with heap := y.heap.makeHeap } : ANA) = r
    have rOpn : ∀ u, r.Opn u ↔ y.Opn u := by
      intro u; rw [← hr]; show keyOf y.heap.makeHeap u ≠ none ↔ _; rw [mh2.key]; exact Iff.rfl
    have rg : r.g = x.g := by rw [← hr, hyx]
    have rh : r.h = x.h := by rw [← hr, hyx]
    have rv : r.v = x.v := by rw [← hr, hyx]
    have rbest : r.bestG = x.bestG := by rw [← hr, hyx]
    have racc : ∀ u, r.acc u ↔ x.acc u := by intro u; rw [← hr, hyx]; exact Iff.rfl
    have reps : r.epsSat = y.epsSat := by rw [← hr]
    have rGe : r.Ge = x.Ge := by funext u; simp only [Ge, racc, rg]
    have rVe : r.Ve = x.Ve := by funext u; simp only [Ve, racc, rv]
    have rbase : r.base = x.base := by rw [← hr, hyx]; rfl
    have rheur : r.heur = x.heur := by rw [← hr, hyx]; rfl
    have rptr : r.ptr = x.ptr := by rw [← hr, hyx]; rfl
    have rsize : r.heap.size = y.heap.size := by rw [← hr]; exact mh2.size
    have frx : Frame x r := by
      constructor
      case accM => exact fun u hu => (racc u).mpr hu
      case gLe => exact fun u => by rw [rGe]
      all_goals (rw [← hr, hyx])
    have fr : Frame st r := (fr0.trans lp.frame).trans frx
    have rkey : ∀ u, keyOf r.heap u = keyOf y.heap u := by intro u; rw [← hr]; exact mh2.key u
    have dr : Data r := by
      refine ⟨by rw [← hr]; exact mh1, by rw [← hr]; exact mh3, by rw [← hr, hyx]; exact lp.data.callLe, ?_⟩
      intro u hu
      by_contra q
      exact rp.sub u ((rOpn u).mp q) (lp.data.staleH u (fun z => hu ((racc u).mpr z)))
    have cr : Core r s0 := by
      refine ⟨(racc _).mpr lp.core.startAcc, by rw [rg]; exact lp.core.startG, ?_, ?_, ?_, ?_, by rw [rbest]; exact lp.core.bestLe⟩
      · intro u hu; rw [rg, rv]; exact lp.core.gv u ((racc u).mp hu)
      · intro u hu; rw [rv]; exact lp.core.vInf u ((racc u).mp hu)
      · intro u hu lt nu
        rw [rg] at lt ⊢
        obtain ⟨p, k, h1, h2, h3, h4⟩ := lp.core.ptrOk u ((racc u).mp hu) lt nu
        exact ⟨p, k, by rw [rptr]; exact h1, by rw [rbase]; exact h2, (racc p).mpr h3, by rw [rv]; exact h4⟩
      · intro u hu; rw [rg]; exact lp.core.opnFin u (rp.sub u ((rOpn u).mp hu))
    have l0 : Live st gl 0 [] → Live (st.touch gl) gl 0 [] := fun l => touch_live d hg l gl
    have xgoal : x.goal = some gl := by rw [lp.frame.goal, e5]; exact hg
    have lr : Live st gl 0 [] → Live r gl 0 [] := by
      intro l
      have lx := lp.live (l0 l)
      refine ⟨?_, by rw [rGe, rbest]; exact lx.gG, by rw [rVe]; exact lx.vGoal, ?_, ?_⟩
      · intro u hu; rw [rh, rheur]; exact lx.hok u ((racc u).mp hu)
      · intro u t c' hm; rw [rbase] at hm; rw [rGe, rVe, rbest, rheur]; exact lx.edge u t c' hm
      · intro u hu lt
        rw [rg, rv] at lt
        rw [rg, rbest, rheur]
        rcases lx.pend u ((racc u).mp hu) lt with q | q
        · rcases rp.sup u q with z | z
          · exact .inl ((rOpn u).mpr z)
          · rw [lx.hok u ((racc u).mp hu)] at z; exact .inr z
        · exact .inr q
    have admE : Adm st gl → Adm x gl := by
      intro h s n w
      have := (fr0.trans lp.frame)
      rw [this.base] at w; rw [this.heur]; exact h s n w
    have baseE : x.base = st.base := (fr0.trans lp.frame).base
    refine ⟨fr, dr, cr, lr, (racc gl).mpr (lp.frame.accM gl ag0), ?_, ?_, ?_, ?_, lp.noGoal, ?_, ?_, ?_⟩
    · intro u k hk
      rw [rkey] at hk
      rw [rp.keys u k hk, ← hr]; rfl
    · intro u hu
      rw [rg, rh, rbest]; exact rp.keep u ((rOpn u).mp hu)
    · rcases lp.best with ⟨_, _, q⟩ | q
      · rw [e1] at q; exact .inl q
      · right; rw [rbest, rg]; exact q
    · intro l
      rw [rbest]
      rcases lp.best with ⟨q, _, _⟩ | q
      · have q : x = st.touch gl := q
        rw [q, e7]
      · have q : x.bestG = x.g gl := q
        have h1 := lp.frame.gLe gl
        have h2 := (l0 l).gG
        rw [Ge_acc (lp.frame.accM gl ag0)] at h1
        rw [q]
        rw [e7] at h2
        exact Nat.le_trans h1 h2
    · intro pos s hs
      have := lp.rch (by intro a b c hm; rw [fr0.base] at hm; exact pos a b c hm) s hs
      rw [fr0.base] at this; exact this
    · rcases rp.eps with ⟨q1, q2⟩ | ⟨q1, q2, q3, q4, q5⟩
      · left
        have xs : x.heap.size = 0 := by omega
        refine ⟨by rw [rsize, q2]; exact xs, by rw [reps, q2, lp.eps, e8], ?_⟩
        intro l adm n w
        rw [rbest]
        rcases walk_front lp.core (lp.live (l0 l)) (admE adm) (by rw [baseE]; exact w) with z | ⟨o, z1, z2⟩
        · exact z
        · exfalso
          cases e' : keyOf x.heap o with
          | none => exact z1 e'
          | some k =>
            obtain ⟨i, i1, i2, _⟩ := slot_of_keyOf lp.data.bp e'
            omega
      · right
        have bnd : ∀ f, x.bestG ≤ f → x.bestG * y.epsSat.2 ≤ y.epsSat.1 * f := by
          intro f hf
          rw [Nat.mul_comm]
          exact Nat.mul_le_mul q3 hf
        refine ⟨by rw [reps]; exact q2, by rw [reps]; exact q3, ?_, ?_, ?_⟩
        · intro u hu
          rw [rbest, reps, rg, rh]; exact q4 u ((rOpn u).mp hu)
        · intro l adm n w
          have lx := lp.live (l0 l)
          rw [rbest, reps]
          rcases walk_front lp.core lx (admE adm) (by rw [baseE]; exact w) with z | ⟨o, z1, z2⟩
          · exact bnd n z
          · rw [← lx.hok o (lp.data.opnAcc z1)] at z2
            refine Nat.le_trans ?_ (Nat.mul_le_mul_left _ z2)
            rcases rp.sup o z1 with z | z
            · exact q4 o z
            · exact bnd _ z
        · intro hk hcons L hL
          rw [rbest, reps]
          rcases q5 with z | ⟨u, z1, z2, z3⟩
          · exact .inl z
          · right
            refine ⟨_, ?_, z3, z2⟩
            refine lp.low L (touch_hok d hg hk gl) ?_ ?_ u z1
            · intro a b c hm; rw [fr0.base] at hm; rw [fr0.heur]; exact hcons a b c hm
            · intro o ho
              have ho' : st.Opn o := by rw [Opn, e1] at ho; exact ho
              have ao := d.opnAcc ho'
              have h1 : (st.touch gl).g o = st.g o := by
                have := touch_Ge d gl o; rwa [Ge_acc (fr0.accM o ao), Ge_acc ao] at this
              have h2 : (st.touch gl).h o = st.h o := by
                by_cases q : o = gl
                · subst q; rw [touch_self_acc d ao]
                · exact (touch_other d gl o q).2.2.1
              rw [h1, h2]; exact hL o ho'
    · intro pos U nd hU
      obtain ⟨f1, f2, f3⟩ := lp.fin (by intro a b c hm; rw [fr0.base] at hm; exact pos a b c hm) U nd
        (by rw [fr0.base]; exact hU)
      have m0 : mu U (st.touch gl) = mu U st := by
        unfold mu; rw [e1, show (st.touch gl).Ge = st.Ge from funext (touch_Ge d gl)]
      have m1 : mu U r ≤ mu U x := by
        unfold mu; rw [rGe, rsize]; have := rp.size; omega
      have f2' : mu U x ≤ mu U st := by rw [← m0]; exact f2
      have f3' : b ≠ 0 → st.heap.size ≠ 0 → mu U x + 1 ≤ mu U st := by
        intro h1 h2; rw [← m0]; exact f3 h1 (by rw [e1]; exact h2)
      refine ⟨?_, (Nat.le_trans m1 f2' : mu U r ≤ mu U st), fun h1 h2 => ?_⟩
      · rcases f1 with f1 | f1 | f1
        · left
          show r.heap.size = 0
          rw [rsize]; have := rp.size; have f1 : x.heap.size = 0 := f1; omega
        · right; left
          show r.Ge gl < INF
          rw [rGe]; exact f1
        · right; right
          show mu U r + b ≤ mu U st
          have f1' : mu U x + b ≤ mu U st := by rw [← m0]; exact f1
          omega
      · have := f3' h1 h2
        show mu U r + 1 ≤ mu U st
        omega

end Sbpl.ANA
