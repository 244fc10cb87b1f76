import Verif.Proofs.ANAPass
import Verif.Proofs.ListAux
import Verif.Spec.ANA
import Mathlib.Data.List.Nodup
/-! ANA*: Search's main loop, restarting the search. -/

namespace Sbpl.ANA
open GraphSpec Heap

theorem opn_empty {st : ANA} (d : Data st) (h : st.heap.size = 0) (s : Nat) : ¬ st.Opn s := by
  intro q
  cases e : keyOf st.heap s with
  | none => exact q e
  | some k =>
    obtain ⟨i, i1, i2, _⟩ := slot_of_keyOf d.bp e
    omega

/-- invariant of the search for `gl` from `s0` -/
structure SInv (st : ANA) (s0 gl : Nat) : Prop where
  start : st.start = some s0
  goal : st.goal = some gl
  data : Data st
  core : Core st s0
  live : Live st gl 0 []
  epsOk : 1 ≤ st.epsSat.1 ∧ st.epsSat.2 ≤ st.epsSat.1
  sat : Pos st → Adm st gl → ∀ n, Walk st.base s0 gl n → st.Ge gl * st.epsSat.2 ≤ st.epsSat.1 * n

/-- established by the first pass -/
structure Swept (st : ANA) (gl : Nat) : Prop where
  acc : st.acc gl
  low : ∀ o, st.Opn o → st.bestG * st.epsSat.2 ≤ st.epsSat.1 * (st.g o + st.h o)

theorem Frame.pos {a b : ANA} (f : Frame a b) (h : Pos a) : Pos b := by
  intro u t c hm; rw [f.base] at hm; exact h u t c hm
theorem Frame.pos' {a b : ANA} (f : Frame a b) (h : Pos b) : Pos a := by
  intro u t c hm; rw [← f.base] at hm; exact h u t c hm
theorem Frame.adm {a b : ANA} {gl : Nat} (f : Frame a b) (h : Adm a gl) : Adm b gl := by
  intro s n w; rw [f.base] at w; rw [f.heur]; exact h s n w
theorem Frame.adm' {a b : ANA} {gl : Nat} (f : Frame a b) (h : Adm b gl) : Adm a gl := by
  intro s n w; rw [← f.base] at w; rw [← f.heur]; exact h s n w
theorem Frame.cons {a b : ANA} {gl : Nat} (f : Frame a b) (h : Cons a gl) : Cons b gl := by
  intro u t c hm; rw [f.base] at hm; rw [f.heur]; exact h u t c hm

theorem PassPost.sinv {st r : ANA} {s0 gl b : Nat} {tr : List Nat} (i : SInv st s0 gl) (p : PassPost st s0 gl b r tr) :
    SInv r s0 gl ∧ Swept r gl := by
  have l := p.live i.live
  have gG := l.gG
  refine ⟨⟨p.frame.start.trans i.start, p.frame.goal.trans i.goal, p.data, p.core, l, ?_, ?_⟩, p.accG, ?_⟩
  · rcases p.eps with ⟨_, q, _⟩ | ⟨q1, q2, _⟩
    · rw [q]; exact i.epsOk
    · exact ⟨q1, q2⟩
  · intro pos adm n w
    have pos' := p.frame.pos' pos
    have adm' := p.frame.adm' adm
    rw [p.frame.base] at w
    rcases p.eps with ⟨_, q, q'⟩ | ⟨q1, q2, _, q3, _⟩
    · have h1 := q' i.live adm' n w
      rw [q]
      have h2 := i.epsOk.2
      rw [Nat.mul_comm]
      exact Nat.mul_le_mul h2 (Nat.le_trans gG h1)
    · exact Nat.le_trans (Nat.mul_le_mul_right _ gG) (q3 i.live adm' n w)
  · intro o ho
    rcases p.eps with ⟨q, _, _⟩ | ⟨_, _, q, _, _⟩
    · exact absurd ho (opn_empty p.data q o)
    · exact q o ho

open ANASpec (FracLe)

theorem frac_trans {a b c : Nat × Nat} (hb : 1 ≤ b.1) (h1 : FracLe a b) (h2 : FracLe b c) : FracLe a c := by
  unfold FracLe at *
  rcases Nat.eq_zero_or_pos b.2 with z | z
  · rw [z] at h2
    have : c.2 = 0 := by
      rcases Nat.eq_zero_or_pos c.2 with y | y
      · exact y
      · have := Nat.mul_le_mul hb y; omega
    rw [this]; omega
  · refine Nat.le_of_mul_le_mul_right ?_ z
    calc a.1 * c.2 * b.2 = (a.1 * b.2) * c.2 := by ring
      _ ≤ (b.1 * a.2) * c.2 := Nat.mul_le_mul_right _ h1
      _ = (b.1 * c.2) * a.2 := by ring
      _ ≤ (c.1 * b.2) * a.2 := Nat.mul_le_mul_right _ h2
      _ = c.1 * a.2 * b.2 := by ring

theorem frac_refl (a : Nat × Nat) : FracLe a a := Nat.le_refl _

theorem PassPost.mono {st r : ANA} {s0 gl b : Nat} {tr : List Nat} (i : SInv st s0 gl) (w : Swept st gl)
    (p : PassPost st s0 gl b r tr) (hc : Cons st gl) : FracLe r.epsSat st.epsSat := by
  rcases p.eps with ⟨_, q, _⟩ | ⟨_, _, _, _, q⟩
  · rw [q]; exact frac_refl _
  · have hp := i.epsOk.1
    have key : ∃ L, st.bestG * st.epsSat.2 ≤ st.epsSat.1 * L ∧ ∀ f, st.bestG * st.epsSat.2 ≤ st.epsSat.1 * f → L ≤ f := by
      refine ⟨(st.bestG * st.epsSat.2 + st.epsSat.1 - 1) / st.epsSat.1, ?_, ?_⟩
      · have h1 := Nat.div_add_mod (st.bestG * st.epsSat.2 + st.epsSat.1 - 1) st.epsSat.1
        have h2 := Nat.mod_lt (st.bestG * st.epsSat.2 + st.epsSat.1 - 1) (show 0 < st.epsSat.1 from hp)
        omega
      · intro f hf
        rw [Nat.div_le_iff_le_mul_add_pred hp]
        omega
    obtain ⟨L, L1, L2⟩ := key
    rcases q i.live.hok hc L (fun o ho => L2 _ (w.low o ho)) with z | ⟨f, f1, f2, f3⟩
    · rw [z]; unfold FracLe
      have := i.epsOk.2
      simpa using this
    · rw [f3]; unfold FracLe
      have hb := p.bestM i.live
      calc r.bestG * st.epsSat.2 ≤ st.bestG * st.epsSat.2 := Nat.mul_le_mul_right _ hb
        _ ≤ st.epsSat.1 * L := L1
        _ ≤ st.epsSat.1 * f := Nat.mul_le_mul_left _ f1

structure LPost (st : ANA) (s0 gl : Nat) (bs : List Nat) (r : ANA) (trs : List (List Nat)) : Prop where
  frame : Frame st r
  inv : SInv r s0 gl
  swept : Swept st gl ∨ (bs ≠ [] ∧ st.heap.size ≠ 0 ∧ st.epsSat.2 < st.epsSat.1) → Swept r gl
  mono : Swept st gl → Cons st gl → FracLe r.epsSat st.epsSat
  noGoal : ∀ tr ∈ trs, gl ∉ tr
  rch : Pos st → ∀ tr ∈ trs, ∀ s ∈ tr, ∃ k, Walk st.base s0 s k
  fin : Pos st → ∀ U : List Nat, U.Nodup → (∀ u k, Walk st.base s0 u k → u ∈ U) → (∀ b ∈ bs, mu U st < b) →
    st.first = false → mu U st < bs.length → r.heap.size = 0 ∨ r.epsSat.1 ≤ r.epsSat.2
  finF : Pos st → ∀ U : List Nat, U.Nodup → (∀ u k, Walk st.base s0 u k → u ∈ U) → (∀ b ∈ bs, mu U st < b) →
    bs ≠ [] → r.heap.size = 0 ∨ r.epsSat.1 ≤ r.epsSat.2 ∨ r.Ge gl < INF

theorem searchLoop_spec {s0 gl : Nat} (bs : List Nat) : ∀ {st : ANA}, SInv st s0 gl → NbrOk st gl →
    OkOr (searchLoop gl bs st) (fun r => LPost st s0 gl bs r.1 r.2) := by
  induction bs with
  | nil =>
    intro st i _
    exact ⟨Frame.refl _, i, fun h => h.elim id (fun q => absurd rfl q.1), fun _ _ => frac_refl _, by simp, by simp,
      fun _ _ _ _ _ _ h => by simp at h, fun _ _ _ _ _ h => absurd rfl h⟩
  | cons b bs ih =>
    intro st i hn
    unfold searchLoop
    by_cases hc : st.heap.isEmpty = false ∧ st.epsSat.1 > st.epsSat.2
    rotate_left
    · rw [if_neg hc]
      have hc' : st.heap.size = 0 ∨ st.epsSat.1 ≤ st.epsSat.2 := by
        by_cases q : st.heap.size = 0
        · exact .inl q
        · right
          by_contra z
          exact hc ⟨by simp [isEmpty, q], by omega⟩
      exact ⟨Frame.refl _, i, fun h => h.elim id (fun q => absurd ⟨by simp [isEmpty, q.2.1], q.2.2⟩ hc), fun _ _ => frac_refl _,
        by simp, by simp, fun _ _ _ _ _ _ _ => hc', fun _ _ _ _ _ _ => hc'.elim .inl (fun q => .inr (.inl q))⟩
    rw [if_pos hc]
    have hsz : st.heap.size ≠ 0 := by
      intro q; simp [isEmpty, q] at hc
    have ps := pass_spec b i.data i.core hn i.goal
    cases e : st.pass b with
    | error x => rw [e] at ps; exact ps
    | ok q =>
      obtain ⟨r, tr⟩ := q
      rw [e] at ps
      have ps : PassPost st s0 gl b r tr := ps
      simp only
      obtain ⟨ri, rw'⟩ := ps.sinv i
      have stop : r.first = true ∨ r.g gl = INFINITECOST → LPost st s0 gl (b :: bs) r [tr] := by
        intro hs
        have f2 : Pos st → ∀ U : List Nat, U.Nodup → (∀ u k, Walk st.base s0 u k → u ∈ U) →
            (∀ b' ∈ b :: bs, mu U st < b') → r.heap.size = 0 ∨ r.Ge gl < INF := by
          intro pos U nd hU hb
          rcases (ps.fin pos U nd hU).1 with q | q | q
          · exact .inl q
          · exact .inr q
          · have h1 := hb b (by simp)
            have h2 : mu U r + b ≤ mu U st := q
            omega
        refine ⟨ps.frame, ri, fun _ => rw', fun w c => ps.mono i w c, ?_, ?_, ?_, ?_⟩
        · intro t ht; rw [List.mem_singleton] at ht; rw [ht]; exact ps.noGoal
        · intro pos t ht; rw [List.mem_singleton] at ht; rw [ht]; exact ps.rch pos
        · intro pos U nd hU hb hf _
          rcases hs with hs | hs
          · rw [ps.frame.first] at hs; rw [hs] at hf; cases hf
          · rcases f2 pos U nd hU hb with q | q
            · exact .inl q
            · rw [Ge_acc ps.accG, hs] at q; exact absurd q (Nat.lt_irrefl _)
        · intro pos U nd hU hb _
          rcases f2 pos U nd hU hb with q | q
          · exact .inl q
          · exact .inr (.inr q)
      by_cases c1 : r.first = true
      · rw [if_pos c1]; exact stop (.inl c1)
      rw [if_neg c1]
      by_cases c2 : r.g gl = INFINITECOST
      · rw [if_pos c2]; exact stop (.inr c2)
      rw [if_neg c2]
      have ih' := ih ri (hn.frame ps.frame)
      cases e' : searchLoop gl bs r with
      | error x => rw [e'] at ih'; exact ih'
      | ok q =>
        obtain ⟨z, trs⟩ := q
        rw [e'] at ih'
        have lp : LPost r s0 gl bs z trs := ih'
        simp only
        refine ⟨ps.frame.trans lp.frame, lp.inv, fun _ => lp.swept (.inl rw'), ?_, ?_, ?_, ?_, ?_⟩
        · intro w c
          exact frac_trans ri.epsOk.1 (lp.mono rw' (ps.frame.cons c)) (ps.mono i w c)
        · intro t ht
          rcases List.mem_cons.mp ht with q | q
          · rw [q]; exact ps.noGoal
          · exact lp.noGoal t q
        · intro pos t ht s hs
          rcases List.mem_cons.mp ht with q | q
          · rw [q] at hs; exact ps.rch pos s hs
          · have := lp.rch (ps.frame.pos pos) t q s hs
            rwa [ps.frame.base] at this
        · intro pos U nd hU hb hf hl
          obtain ⟨f1, f2, f3⟩ := ps.fin pos U nd hU
          have h1 := hb b (by simp)
          have h2 : mu U r + 1 ≤ mu U st := f3 (by omega) hsz
          exact lp.fin (ps.frame.pos pos) U nd (by rw [ps.frame.base]; exact hU)
            (fun b' hb' => Nat.lt_of_le_of_lt f2 (hb b' (by simp [hb']))) (by rw [ps.frame.first]; exact hf)
            (by simp only [List.length_cons] at hl; omega)
        · intro pos U nd hU hb _
          right; right
          have := lp.frame.gLe gl
          rw [Ge_acc ps.accG] at this
          have h3 := ri.core.gv gl ps.accG
          have h4 := ri.core.vInf gl ps.accG
          show z.Ge gl < INFINITECOST
          have h5 : r.g gl ≤ INFINITECOST := Nat.le_trans h3 h4
          omega

/-- at the end of the search G is optimal -/
theorem SInv.optimal {st : ANA} {s0 gl : Nat} (i : SInv st s0 gl) (pos : Pos st) (adm : Adm st gl)
    (h : st.heap.size = 0 ∨ st.epsSat.1 ≤ st.epsSat.2) {n : Nat} (w : Walk st.base s0 gl n) : st.Ge gl ≤ n := by
  rcases h with h | h
  · rcases walk_front i.core i.live adm w with q | ⟨o, q, _⟩
    · exact Nat.le_trans i.live.gG q
    · exact absurd q (opn_empty i.data h o)
  · have h1 := i.sat pos adm n w
    have h2 : st.epsSat.1 * n ≤ st.epsSat.2 * n := Nat.mul_le_mul_right _ h
    have h3 := i.epsOk.1
    rw [Nat.mul_comm] at h1
    exact Nat.le_of_mul_le_mul_left (Nat.le_trans h1 h2) (by omega)

theorem SInv.reach {st : ANA} {s0 gl : Nat} (i : SInv st s0 gl) (pos : Pos st) {s : Nat} (h : st.Ge s < INF) :
    ∃ k, Walk st.base s0 s k ∧ k ≤ st.Ge s := by
  by_cases a : st.acc s
  · rw [Ge_acc a] at h ⊢
    exact ANA.reach i.core pos _ s (Nat.le_refl _) a h
  · rw [Ge_stale a] at h; omega

theorem mu_le {st : ANA} {s0 gl : Nat} (i : SInv st s0 gl) (pos : Pos st) {U : List Nat}
    (hU : ∀ u k, Walk st.base s0 u k → u ∈ U) : mu U st ≤ (2 * INF + 1) * U.length := by
  have h1 : ∀ (V : List Nat), (V.map st.Ge).sum ≤ INF * V.length := by
    intro V
    induction V with
    | nil => simp
    | cons a V ih =>
      have := (i.core.le a)
      have : st.Ge a ≤ INF := Nat.le_trans this.1 this.2
      simp only [List.map_cons, List.sum_cons, List.length_cons, Nat.mul_add, Nat.mul_one]
      omega
  have h2 : st.heap.size ≤ U.length := by
    have hl : ((List.range st.heap.size).map (fun j => (st.heap.arr (j + 1)).st)).length = st.heap.size := by simp
    rw [← hl]
    refine nodup_len_le ?_ ?_
    · refine List.Nodup.map_on ?_ List.nodup_range
      intro x hx y hy e
      rw [List.mem_range] at hx hy
      have h1 := i.data.bp.fwd (x + 1) (by omega) (by omega)
      have h2 := i.data.bp.fwd (y + 1) (by omega) (by omega)
      rw [e] at h1
      omega
    · intro s hs
      obtain ⟨j, hj, rfl⟩ := List.mem_map.mp hs
      rw [List.mem_range] at hj
      have h1 := i.data.bp.fwd (j + 1) (by omega) (by omega)
      have ho : st.Opn (st.heap.arr (j + 1)).st := by
        intro q; rw [keyOf_none] at q; omega
      obtain ⟨k, w, _⟩ := i.reach pos (s := (st.heap.arr (j + 1)).st)
        (by rw [Ge_acc (i.data.opnAcc ho)]; exact i.core.opnFin _ ho)
      exact hU _ k w
  have := h1 U
  unfold mu
  have e : (2 * INF + 1) * U.length = 2 * (INF * U.length) + U.length := by ring
  rw [e]; omega

/-- last step of reinitFrom -/
def reinitEnd (z : ANA) (s0 : Nat) : Except PErr ANA :=
  match z.heap.insert s0 (z.keyFor s0) with
  | .error e => .error (.heap e)
  | .ok h => .ok { z with heap := h, bReinit := false }

theorem reinitFrom_eq (st : ANA) (s0 : Nat) : st.reinitFrom s0 =
    reinitEnd { (({ st with call := st.call + 1, bestG := INFINITECOST, heap := st.heap.makeEmpty,
                            epsSat := (INFINITECOST, 1) } : ANA).touch s0) with
      g := upd (({ st with call := st.call + 1, bestG := INFINITECOST, heap := st.heap.makeEmpty,
                           epsSat := (INFINITECOST, 1) } : ANA).touch s0).g s0 0 } s0 := rfl

theorem reinitFrom_spec {st : ANA} {s0 gl : Nat} (d : Data st) (hs : st.start = some s0) (hg : st.goal = some gl) :
    OkOr (st.reinitFrom s0) (fun r => SInv r s0 gl ∧ r.bReinit = false ∧ r.heap.size ≠ 0 ∧ r.epsSat = (INFINITECOST, 1) ∧
      r.env = st.env ∧ r.fwd = st.fwd ∧ r.first = st.first) := by
  rw [reinitFrom_eq]
  generalize hx : ({ st with
    call := st.call + 1, bestG := INFINITECOST, heap := st.heap.makeEmpty, epsSat := (INFINITECOST, 1) } : ANA) = x
  obtain ⟨m1, m2, m4, m3, _⟩ := makeEmpty_spec d.bp
  have xst : ∀ s, ¬ x.acc s := by
    intro s h; have := d.callLe s; rw [← hx] at h; have h : st.callA s = st.call + 1 := h; omega
  have dx : Data x := by
    refine ⟨by rw [← hx]; exact m1, by rw [← hx]; exact m3, ?_, ?_⟩
    · intro s; rw [← hx]; have := d.callLe s; show st.callA s ≤ st.call + 1; omega
    · intro s _; rw [← hx]; exact m2 s
  have gx : x.goal = some gl := by rw [← hx]; exact hg
  have d2 := touch_data dx s0
  have fr := touch_frame dx s0
  obtain ⟨n1, n2, n4⟩ := touch_self_new dx (xst s0)
  obtain ⟨e1, e3, e4, e5, e6, e7, e8, e9⟩ := touch_same dx s0
  have a2 : ∀ s, (x.touch s0).acc s ↔ s = s0 := by
    intro s; rw [touch_acc_iff dx]; simp [xst s]
  have hk : HOk (x.touch s0) gl := touch_hok dx gx (fun s h => absurd h (xst s)) s0
  generalize hy : x.touch s0 = y at *
  generalize hz : ({ y with g := upd y.g s0 0 } : ANA) = z
  have zacc : ∀ s, z.acc s ↔ s = s0 := by intro s; rw [← hz]; exact a2 s
  have hn : keyOf z.heap s0 = none := by rw [← hz]; show keyOf y.heap s0 = none; rw [e1, ← hx]; exact m2 s0
  have zbp : BP z.heap := by rw [← hz]; exact d2.bp
  have zord : Ordered z.heap := by rw [← hz]; exact d2.ord
  have zsz : z.heap.size = 0 := by rw [← hz]; show y.heap.size = 0; rw [e1, ← hx]; exact m4
  have zg : z.g s0 = 0 := by rw [← hz]; exact upd_same _ _ _
  have zv : z.v s0 = INF := by rw [← hz]; exact n2
  unfold reinitEnd
  cases e : z.heap.insert s0 (z.keyFor s0) with
  | error q => simp only [OkOr]; rw [heap_insert_err hn e]
  | ok h =>
    obtain ⟨s1, s2, s3, s4, _, _⟩ := insert_spec zbp e
    show SInv ({ z with heap := h, bReinit := false } : ANA) s0 gl ∧ _
    generalize hr : ({ z with heap := h, bReinit := false } : ANA) = r
    have racc : ∀ s, r.acc s ↔ s = s0 := by intro s; rw [← hr]; exact zacc s
    have rg : r.g s0 = 0 := by rw [← hr]; exact zg
    have rv : r.v s0 = INF := by rw [← hr]; exact zv
    have rVe : ∀ u, r.Ve u = INF := by
      intro u
      by_cases q : u = s0
      · rw [q, Ve_acc ((racc s0).mpr rfl)]; exact rv
      · exact Ve_stale (fun h => q ((racc u).mp h))
    have rGe : ∀ u, r.Ge u ≤ INF := by
      intro u
      by_cases q : u = s0
      · rw [q, Ge_acc ((racc s0).mpr rfl), rg]; omega
      · rw [Ge_stale (fun h => q ((racc u).mp h))]
    have rkey : keyOf r.heap = upd (keyOf z.heap) s0 (some (z.keyFor s0)) := by rw [← hr]; exact s2
    have rb : r.bestG = INF := by
      rw [← hr, ← hz]; show y.bestG = _; rw [e8, ← hx]
    have zk : ∀ s, keyOf z.heap s = none := by intro s; rw [← hz]; show keyOf y.heap s = none; rw [e1, ← hx]; exact m2 s
    have reps : r.epsSat = (INFINITECOST, 1) := by
      rw [← hr, ← hz]; show y.epsSat = _; rw [e9, ← hx]
    refine ⟨⟨?_, ?_, ⟨?_, ?_, ?_, ?_⟩, ⟨(racc s0).mpr rfl, rg, ?_, ?_, ?_, ?_, ?_⟩, ⟨?_, ?_, rVe gl, ?_, ?_⟩, ?_, ?_⟩, ?_, ?_, reps, ?_, ?_, ?_⟩
    · rw [← hr, ← hz]; show y.start = _; rw [e7, ← hx]; exact hs
    · rw [← hr, ← hz]; show y.goal = _; rw [e6, ← hx]; exact hg
    · rw [← hr]; exact s1
    · rw [← hr]; exact s4 zord
    · rw [← hr, ← hz]; exact d2.callLe
    · intro s h; rw [rkey, upd_other _ _ (fun q => h ((racc s).mpr q))]; exact zk s
    · intro s h; rw [(racc s).mp h, rg]; omega
    · intro s h; rw [(racc s).mp h, rv]
    · intro s h _ n; exact absurd ((racc s).mp h) n
    · intro s h
      by_cases q : s = s0
      · rw [q, rg]; decide
      · exfalso; apply h; rw [rkey, upd_other _ _ q]; exact zk s
    · rw [rb]
    · intro s h
      have q := (racc s).mp h
      have := hk s ((a2 s).mpr q)
      rw [← hr, ← hz]; exact this
    · rw [rb]; exact rGe gl
    · intro u t c _
      right; left; rw [rVe]; have := rGe t; omega
    · intro s h _
      left
      rw [Opn, rkey, (racc s).mp h, upd_same]; simp
    · rw [reps]; decide
    · intro pos _ n w
      rw [reps]
      show r.Ge gl * 1 ≤ INFINITECOST * n
      by_cases q : gl = s0
      · rw [q, Ge_acc ((racc s0).mpr rfl), rg]; omega
      · have : 1 ≤ n := by
          cases w with
          | nil => exact absurd rfl q
          | snoc _ hm => have := pos _ _ _ hm; omega
        have h1 := rGe gl
        have h2 := Nat.mul_le_mul_left INFINITECOST this
        have h1 : r.Ge gl ≤ INFINITECOST := h1
        omega
    · rw [← hr]
    · rw [← hr]; show h.size ≠ 0; omega
    · rw [← hr, ← hz]; show y.env = _; rw [e4, ← hx]
    · rw [← hr, ← hz]; show y.fwd = _; rw [e5, ← hx]
    · rw [← hr, ← hz]; show y.first = _; rw [fr.first, ← hx]

end Sbpl.ANA
