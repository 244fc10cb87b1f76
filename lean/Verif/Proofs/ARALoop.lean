import Verif.Proofs.ARA
/-! ARA*: the ImprovePath loop, suboptimality bound, expansion order, return codes. -/

namespace Sbpl.ARA
open GraphSpec Heap

theorem Core.any {st : ARA} {s0 x : Nat} (y : Nat) (c : Core st s0 x []) : Core st s0 y [] := by
  refine { c with edge := ?_ }
  intro u t k h
  rcases c.edge u t k h with ⟨_, hm⟩ | hm
  · cases hm
  · exact .inr hm

theorem Inv.any {st : ARA} {s0 gl x : Nat} (y : Nat) (c : Inv st s0 gl x []) : Inv st s0 gl y [] :=
  ⟨c.data, c.core.any y, c.phase, c.goal, c.hok, c.keys⟩

/-- a rational bound `N / M` -/
structure Bnd where
  N : Nat
  M : Nat

/-- `E` is a bound by which inflated heuristic values may decrease, for the current eps -/
structure EpsLe (st : ARA) (gl : Nat) (E : Bnd) : Prop where
  one : E.M ≤ E.N
  le : UpTo st.base (st.heur gl) st.D st.eps E.N E.M

/-- every state expanded in this iteration got a value within the bound -/
def J (st : ARA) (s0 gl : Nat) : Prop :=
  ∀ E, EpsLe st gl E → ∀ s c, st.closed s → Walk st.base s0 s c → E.M * st.V s ≤ E.N * c

theorem infl_add {D e E : Nat} (h r : Nat) (le : e ≤ E * D) : infl D e (h + r) ≤ infl D e h + E * r := by
  unfold infl
  rcases Nat.eq_zero_or_pos D with rfl | hD
  · simp
  · have : e * (h + r) ≤ e * h + (E * r) * D := by
      have := Nat.mul_le_mul_right r le
      nlinarith
    calc e * (h + r) / D ≤ (e * h + (E * r) * D) / D := Nat.div_le_div_right this
      _ = e * h / D + E * r := Nat.add_mul_div_right _ _ hD

theorem infl_mono {D e h h' : Nat} (x : h ≤ h') : infl D e h ≤ infl D e h' :=
  Nat.div_le_div_right (Nat.mul_le_mul_left e x)

theorem infl_zero (D e : Nat) : infl D e 0 = 0 := by simp [infl]

/-- Along every walk from the start, either the end has a value within the bound or some OPEN state on
the walk has. -/
theorem walk_front {st : ARA} {s0 gl x : Nat} (i : Inv st s0 gl x []) (j : J st s0 gl)
    {E : Bnd} (he : EpsLe st gl E) {n c : Nat}
    (w : Walk st.base s0 n c) :
    E.M * st.G n ≤ E.N * c ∨ ∃ o co r, keyOf st.heap o ≠ none ∧ E.M * st.g o ≤ E.N * co ∧ co + r = c ∧
      E.M * infl st.D st.eps (st.heur gl o) ≤ E.M * infl st.D st.eps (st.heur gl n) + E.N * r := by
  induction w with
  | nil => left; rw [G_acc i.core.startAcc, i.core.startG]; omega
  | @snoc n t c d w hm ih =>
    have hcons : E.M * infl st.D st.eps (st.heur gl n) ≤ E.M * infl st.D st.eps (st.heur gl t) + E.N * d :=
      he.le n t d hm
    have e1 : E.N * (c + d) = E.N * c + E.N * d := by ring
    have e2 : E.M * d ≤ E.N * d := Nat.mul_le_mul_right d he.one
    rcases ih with ih | ⟨o, co, r, h1, h2, h3, h4⟩
    · rcases i.core.edge n t d hm with ⟨_, hx⟩ | hx
      · cases hx
      by_cases hv : E.M * st.V n ≤ E.N * c
      · left
        have := Nat.mul_le_mul_left E.M hx
        rw [Nat.mul_add] at this
        omega
      · have lt : st.G n < st.V n := by
          by_contra q
          exact hv (Nat.le_trans (Nat.mul_le_mul_left E.M (Nat.le_of_not_lt q)) ih)
        have a : st.acc n := by
          by_contra na; rw [G_stale na, V_stale na] at lt; omega
        rw [G_acc a, V_acc a] at lt
        rcases i.core.ltIn n a lt with hO | hI
        · right
          refine ⟨n, c, d, hO, by rw [← G_acc a]; exact ih, rfl, hcons⟩
        · exact absurd (j E he n c ⟨a, i.phase.inc n hI⟩ w) hv
    · right; exact ⟨o, co, r + d, h1, h2, by omega, by rw [Nat.mul_add]; omega⟩

theorem front_key {st : ARA} {s0 gl x : Nat} (i : Inv st s0 gl x []) {E : Bnd} {n c o co r : Nat}
    (h1 : keyOf st.heap o ≠ none) (h2 : E.M * st.g o ≤ E.N * co) (h3 : co + r = c)
    (h4 : E.M * infl st.D st.eps (st.heur gl o) ≤ E.M * infl st.D st.eps (st.heur gl n) + E.N * r) :
    E.M * (st.g o + infl st.D st.eps (st.h o)) ≤ E.N * c + E.M * infl st.D st.eps (st.heur gl n) := by
  rw [i.hok o (i.data.openAcc h1), Nat.mul_add]
  have : E.N * c = E.N * co + E.N * r := by rw [← h3]; ring
  omega

theorem key_le {a b : Nat} (h : (⟨(a : Int), 0⟩ : CKey) ≤ ⟨(b : Int), 0⟩) : a ≤ b := by
  rw [CKey.le_def] at h; simp only at h; omega

/-- the state removed from OPEN is within the bound of every walk to it -/
theorem popped_bound {st : ARA} {s0 gl x s : Nat} (i : Inv st s0 gl x []) (j : J st s0 gl)
    (so : keyOf st.heap s ≠ none)
    (mn : ∀ t k, keyOf st.heap t = some k → st.keyFor s ≤ k) {E : Bnd} (he : EpsLe st gl E) {c : Nat}
    (w : Walk st.base s0 s c) : E.M * st.G s ≤ E.N * c := by
  rcases walk_front i j he w with h | ⟨o, co, r, h1, h2, h3, h4⟩
  · exact h
  · have fk := front_key i h1 h2 h3 h4
    cases e : keyOf st.heap o with
    | none => exact absurd e h1
    | some k =>
      have m := mn o k e
      rw [i.keys o k e] at m
      have m' := Nat.mul_le_mul_left E.M (key_le m)
      have as := i.data.openAcc so
      rw [i.hok s as, Nat.mul_add] at m'
      rw [G_acc as]
      omega

theorem keyOf_exists {st : ARA} (d : Data st) (h : st.heap.size ≠ 0) :
    keyOf st.heap (st.heap.arr 1).st = some (st.heap.kat 1) :=
  keyOf_slot d.bp (Nat.le_refl 1) (by omega)

/-- loop exit: the goal is within the bound -/
theorem exit_bound {st : ARA} {s0 gl x : Nat} (i : Inv st s0 gl x []) (j : J st s0 gl)
    (hc : st.heur gl gl = 0) (ag : st.acc gl)
    (ex : st.heap.size = 0 ∨ st.goalKey gl ≤ st.heap.kat 1) {E : Bnd} (he : EpsLe st gl E) {c : Nat}
    (w : Walk st.base s0 gl c) : E.M * st.g gl ≤ E.N * c := by
  rcases walk_front i j he w with h | ⟨o, co, r, h1, h2, h3, h4⟩
  · rw [G_acc ag] at h; exact h
  · have fk := front_key i h1 h2 h3 h4
    rw [hc, infl_zero] at fk
    cases e : keyOf st.heap o with
    | none => exact absurd e h1
    | some k =>
      obtain ⟨sl, a1, a2, _, _⟩ := slot_of_keyOf i.data.bp e
      rcases ex with ex | ex
      · omega
      · have m := le_trans ex (min_le i.data.bp i.data.ord e)
        rw [i.keys o k e] at m
        have := Nat.mul_le_mul_left E.M (key_le m)
        omega

structure LoopPost (st : ARA) (s0 gl b : Nat) (tr : List Nat) (st' : ARA) : Prop where
  inv : Inv st' s0 gl 0 []
  frame : Frame st st'
  nodup : tr.Nodup
  fresh : ∀ s ∈ tr, ¬ st.closed s
  cl : ∀ t, st'.closed t ↔ t ∈ tr ∨ st.closed t
  vLt : ∀ s ∈ tr, st'.V s < INF
  noGoal : gl ∉ tr
  j : J st s0 gl → J st' s0 gl
  fin : tr.length < b → st'.loopCond gl = false
  len : tr.length ≤ b
  vMono : ∀ s, st'.V s ≤ st.V s

theorem improveLoop_spec {s0 gl : Nat} (b : Nat) : ∀ {st : ARA}, Inv st s0 gl 0 [] → NbrOk st gl → st.acc gl →
    OkOr (improveLoop gl b st) (fun r => LoopPost st s0 gl b r.1 r.2) := by
  induction b with
  | zero =>
    intro st i hn ag
    exact ⟨i, Frame.refl st, by simp, by simp, by simp, by simp, by simp, fun h => h, by simp, by simp,
      fun _ => Nat.le_refl _⟩
  | succ b ih =>
    intro st i hn ag
    unfold improveLoop
    split
    next hc =>
      have es := expand_spec i hn ag hc
      cases e : st.expand with
      | error x => rw [e] at es; exact es
      | ok r =>
        rw [e] at es
        obtain ⟨s, st1⟩ := r
        obtain ⟨i1, ex, sg⟩ := es
        simp only at i1 ex sg ⊢
        have ih' := ih (i1.any 0) (hn.frame ex.frame) (ex.frame.accM gl ag)
        cases e2 : improveLoop gl b st1 with
        | error x => rw [e2] at ih'; exact ih'
        | ok r =>
          rw [e2] at ih'
          obtain ⟨tr, st2⟩ := r
          simp only [OkOr] at ih' ⊢
          have c1 : st1.closed s := (ex.cl s).mpr (.inl rfl)
          have v1 : st1.V s ≤ st.V s := by rw [ex.vSelf]; exact (i.core.GV s).1
          refine ⟨ih'.inv, ex.frame.trans ih'.frame, ?_, ?_, ?_, ?_, ?_, ?_, ?_, ?_, ?_⟩
          · exact List.nodup_cons.mpr ⟨fun h => ih'.fresh s h c1, ih'.nodup⟩
          · intro t h
            rw [List.mem_cons] at h
            rcases h with rfl | h
            · exact ex.notCl
            · intro hcl; exact ih'.fresh t h ((ex.cl t).mpr (.inr hcl))
          · intro t
            rw [ih'.cl, ex.cl, List.mem_cons]
            constructor
            · rintro (h | h | h)
              · exact .inl (.inr h)
              · exact .inl (.inl h)
              · exact .inr h
            · rintro ((h | h) | h)
              · exact .inr (.inl h)
              · exact .inl h
              · exact .inr (.inr h)
          · intro t h
            rw [List.mem_cons] at h
            rcases h with rfl | h
            · have := ih'.vMono t
              have a := i.data.openAcc ex.wasOpen
              have l1 := i.core.openLt t ex.wasOpen
              have l2 := i.core.vInf t a
              rw [ex.vSelf, G_acc a] at this
              omega
            · exact ih'.vLt t h
          · rw [List.mem_cons]; rintro (h | h)
            · exact sg h.symm
            · exact ih'.noGoal h
          · intro hj
            apply ih'.j
            intro E he t c hcl w
            have he' : EpsLe st gl E :=
              ⟨he.one, by have := he.le; rw [ex.frame.eps, ex.frame.D, ex.frame.base, ex.frame.heur] at this; exact this⟩
            rw [ex.frame.base] at w
            by_cases q : t = s
            · subst q
              rw [ex.vSelf]
              exact popped_bound i hj ex.wasOpen ex.isMin he' w
            · rw [ex.vOther t q]
              exact hj E he' t c (((ex.cl t).mp hcl).resolve_left q) w
          · intro h
            exact ih'.fin (by simp only [List.length_cons] at h; omega)
          · have := ih'.len; simp only [List.length_cons]; omega
          · intro t
            refine Nat.le_trans (ih'.vMono t) ?_
            by_cases q : t = s
            · subst q; exact v1
            · rw [ex.vOther t q]
    next hc =>
      exact ⟨i, Frame.refl st, by simp, by simp, by simp, by simp, by simp, fun h => h,
        fun _ => by simpa using hc, by simp, fun _ => Nat.le_refl _⟩

theorem retCode_exit {st : ARA} {gl : Nat} (h : st.retCode gl ≠ 2) :
    st.heap.size = 0 ∨ st.goalKey gl ≤ st.heap.kat 1 := by
  by_cases z : st.heap.size = 0
  · exact .inl z
  · right
    by_contra c
    have c' : st.heap.kat 1 < st.goalKey gl := not_le.mp c
    apply h
    have ne : st.heap.isEmpty = false := by simp [Heap.isEmpty, z]
    have g : CKey.gtB (st.goalKey gl) st.minKey = true := by
      unfold minKey Heap.getMinKey
      rw [if_neg z]
      rw [CKey.lt_def] at c'
      simp only [CKey.gtB, Bool.or_eq_true, decide_eq_true_eq, Bool.and_eq_true]
      simp only [kat] at c'
      omega
    unfold retCode
    rw [if_neg (by simp [ne]), if_pos ⟨ne, g⟩]

theorem loopCond_false_exit {st : ARA} {s0 gl x : Nat} (i : Inv st s0 gl x []) (ag : st.acc gl)
    (h : st.loopCond gl = false) : st.heap.size = 0 ∨ st.goalKey gl ≤ st.heap.kat 1 := by
  by_cases z : st.heap.size = 0
  · exact .inl z
  · right
    by_contra c
    have c' : st.heap.kat 1 < st.goalKey gl := not_le.mp c
    have hx : ¬ (st.heap.kat 1).k0 < 1000000000 := by
      intro hx
      have := loopCond_iff.mpr ⟨z, hx, c'⟩
      rw [h] at this; cases this
    have kk := i.keys _ _ (keyOf_exists i.data z)
    rw [CKey.lt_def] at c'
    have l1 := i.core.gv gl ag
    have l2 := i.core.vInf gl ag
    have k1 : (st.heap.kat 1).k1 = 0 := by rw [kk]; rfl
    simp only [goalKey] at c'
    unfold INF INFINITECOST at l2
    omega

theorem exit_retCode {st : ARA} {gl : Nat} (h : st.heap.size = 0 ∨ st.goalKey gl ≤ st.heap.kat 1) :
    st.retCode gl ≠ 2 := by
  unfold retCode
  split
  · omega
  · split
    next hh =>
      obtain ⟨h1, h2⟩ := hh
      have z : st.heap.size ≠ 0 := by simpa [Heap.isEmpty] using h1
      rcases h with h | h
      · exact absurd h z
      · exfalso
        unfold minKey Heap.getMinKey at h2
        rw [if_neg z] at h2
        rw [CKey.le_def] at h
        simp only [CKey.gtB, Bool.or_eq_true, decide_eq_true_eq, Bool.and_eq_true] at h2
        simp only [kat] at h
        omega
    · split <;> omega

theorem retCode_one {st : ARA} {gl : Nat} (h : st.retCode gl = 1) : st.g gl ≠ INFINITECOST := by
  intro g
  unfold retCode at h
  by_cases z : st.heap.isEmpty = true
  · simp [g, z] at h
  · have z' : st.heap.isEmpty = false := by simpa using z
    simp only [g, z', Bool.false_eq_true, and_false, if_false, true_and, and_self, if_true] at h
    split at h <;> omega

structure ImprovePost (st : ARA) (s0 gl b : Nat) (r : ARA × Nat × List Nat) : Prop where
  inv : Inv r.1 s0 gl 0 []
  frame : Frame st r.1
  accG : r.1.acc gl
  nodup : r.2.2.Nodup
  noGoal : gl ∉ r.2.2
  vLt : ∀ s ∈ r.2.2, r.1.V s < INF
  j : J st s0 gl → J r.1 s0 gl
  ret : r.2.1 = r.1.retCode gl
  fin : r.2.2.length < b → r.1.heap.size = 0 ∨ r.1.goalKey gl ≤ r.1.heap.kat 1
  len : r.2.2.length ≤ b

theorem improvePath_spec {st : ARA} {s0 gl : Nat} (b : Nat) (i : Inv st s0 gl 0 []) (hn : NbrOk st gl) :
    OkOr (st.improvePath b) (ImprovePost st s0 gl b) := by
  have fr := touch_frame i.data gl
  have sp := touch_step i.data i.phase.it gl
  have i1 := touch_inv i gl
  have ag := touch_acc i.data gl
  have ls := improveLoop_spec b i1 (hn.frame fr) ag
  unfold improvePath
  rw [i.goal]
  simp only
  cases e : improveLoop gl b (st.touch gl) with
  | error x => rw [e] at ls; exact ls
  | ok r =>
    rw [e] at ls
    obtain ⟨tr, st1⟩ := r
    have ag1 := ls.frame.accM gl ag
    refine ⟨ls.inv, fr.trans ls.frame, ag1, ls.nodup, ls.noGoal, ls.vLt, ?_, rfl, ?_, ls.len⟩
    · intro hj
      apply ls.j
      intro E he t c hcl w
      rw [sp.vEq]
      rw [fr.base] at w
      exact hj E ⟨he.one, by have := he.le; rw [fr.eps, fr.D, fr.base, fr.heur] at this; exact this⟩ t c
        ((sp.clEq t).mp hcl) w
    · intro h
      exact loopCond_false_exit ls.inv ag1 (ls.fin h)

end Sbpl.ARA
