import Verif.Proofs.ADSearch
import Verif.Proofs.ARAPath
/-! AD*: path extraction. -/

namespace Sbpl.AD
open GraphSpec ARA Heap PlannerSpec

/-- the back pointers of a state that matters lead to the start -/
theorem chain_exists {st : ARA} {g : Gr} {gl : Nat} {F : Prop} (ok : GOk g) (gr : IsGr st g gl)
    (v : Idle g F (vals st)) (cl : Clean g gl (vals st)) (n : Nat) :
    ∀ s, st.G s ≤ n → st.acc s → (g.Q s ∨ s = g.s0) → st.G s + g.H s ≤ st.G gl → st.G gl < INF →
    ∃ L, Chain st g.s0 (s :: L) ∧ L.length ≤ st.G s ∧ ∀ x ∈ L, st.g x ≤ st.v x := by
  induction n with
  | zero =>
    intro s h a q hh lt
    by_cases e : s = g.s0
    · subst e
      refine ⟨[], .start a ?_, by simp, by simp⟩
      rw [← G_acc a]; omega
    · obtain ⟨p, c, h1, h2, h3⟩ := v.ptrOk s (q.resolve_right e) (by change st.G s < INF; omega) e
      have := ok.pos p s c h2
      rcases h3 with h3 | ⟨_, _, _, h3⟩
      · change st.V p + c ≤ st.G s at h3; omega
      · cases h3
  | succ n ih =>
    intro s h a q hh lt
    by_cases e : s = g.s0
    · subst e
      refine ⟨[], .start a ?_, by simp, by simp⟩
      rw [← G_acc a]; omega
    · obtain ⟨p, c, h1, h2, h3⟩ := v.ptrOk s (q.resolve_right e) (by change st.G s < INF; omega) e
      have pos := ok.pos p s c h2
      have h4 : st.V p + c ≤ st.G s := by
        rcases h3 with h3 | ⟨_, _, _, h3⟩
        · exact h3
        · cases h3
      have hc := ok.cons p s c h2
      have ap : st.acc p := by
        by_contra x; rw [V_stale x] at h4; omega
      have qp : g.Q p ∨ p = g.s0 := by
        by_contra x
        rw [not_or] at x
        rw [ok.iso p x.2 x.1] at h2
        cases h2
      have gv : st.G p ≤ st.V p := by
        by_contra x
        rcases qp with qp | rfl
        · have := cl p qp (by change st.V p < st.G p; omega)
          change st.G gl < st.V p + g.H p at this
          omega
        · have := v.startG
          change st.G g.s0 = 0 at this
          omega
      obtain ⟨L, c1, c2, c3⟩ := ih p (by omega) ap qp (by omega) lt
      have hb : (s, c) ∈ st.base p := by rw [gr.base]; exact h2
      have hp : st.ptr s = some p := by
        have : (if st.acc s then st.ptr s else none) = some p := h1
        rwa [if_pos a] at this
      have gv' : st.g p ≤ st.v p := by rw [← G_acc ap, ← V_acc ap]; exact gv
      refine ⟨p :: L, .cons e a ?_ hp hb pos ?_ gv' c1, by simp only [List.length_cons]; omega, ?_⟩
      · rw [← G_acc a]; omega
      · rw [← G_acc a, ← V_acc ap]; exact h4
      · intro x hx
        rcases List.mem_cons.mp hx with rfl | hx
        · exact gv'
        · exact c3 x hx

theorem reconstruct_spec (L : List Nat) : ∀ {st : ARA} {s0 s : Nat} (steps : Nat), Chain st s0 (s :: L) →
    st.fwd = true → reconstruct s0 steps st s =
      .ok (if L.length ≤ steps then some { st with next := setNexts st.next (s :: L) } else none) := by
  induction L with
  | nil =>
    intro st s0 s steps h _
    cases h
    cases steps <;> simp [reconstruct, setNexts]
  | cons p r ih =>
    intro st s0 s steps h f
    cases h with
    | @cons _ _ c _ h1 h2 h3 h4 h5 h6 h7 h8 h9 =>
      cases steps with
      | zero => simp [reconstruct, h1]
      | succ n =>
        unfold reconstruct
        have pr : st.par s = some p := by simpa [ptr, f] using h4
        rw [if_neg h1, if_neg (by unfold INF at h3; omega), pr]
        simp only
        rw [if_neg (by omega)]
        have := ih n (h9.congr_next f (upd st.next p (some s))) f
        rw [this]
        simp only [List.length_cons, Nat.add_le_add_iff_right]
        rfl

theorem follow_spec (L : List Nat) : ∀ {st : ARA} {tgt eg a : Nat} (steps : Nat), Link st.next (a :: L) →
    (a :: L).getLast? = some tgt → (a :: L).Nodup → (∀ x ∈ a :: L, st.g x < INF) →
    (∀ x ∈ a :: L, x ≠ tgt → st.g x ≤ st.v x) →
    ∃ c, follow tgt eg steps st a = .ok (if L.length ≤ steps then some (a :: L, c) else none) := by
  induction L with
  | nil =>
    intro st tgt eg a steps _ hl _ _ _
    simp at hl; subst hl
    refine ⟨0, ?_⟩
    cases steps <;> simp [follow]
  | cons b r ih =>
    intro st tgt eg a steps hk hl nd hg hv
    have ne : a ≠ tgt := by
      rintro rfl
      rw [List.getLast?_cons_cons] at hl
      exact (List.nodup_cons.mp nd).1 (List.mem_of_getLast? hl)
    cases steps with
    | zero => exact ⟨0, by simp [follow, ne]⟩
    | succ n =>
      rw [List.getLast?_cons_cons] at hl
      obtain ⟨c, hc⟩ := ih (eg := eg) n hk.2 hl (List.nodup_cons.mp nd).2 (fun x hx => hg x (List.mem_cons_of_mem _ hx))
        (fun x hx => hv x (List.mem_cons_of_mem _ hx))
      have ga := hg a (by simp)
      have va := hv a (by simp) ne
      refine ⟨actionCost (st.env.succs eg a) b + c, ?_⟩
      unfold follow
      rw [if_neg ne, hk.1]
      simp only
      rw [if_neg (by unfold INF at ga; omega), if_neg (by omega), hc]
      simp only [List.length_cons, Nat.add_le_add_iff_right]
      by_cases q : r.length ≤ n
      · simp only [if_pos q]
      · simp only [if_neg q]

/-- what GetSearchPath returns when a solution was found -/
theorem getSearchPath_spec {st : ARA} {g : Gr} {gl e : Nat} {F : Prop} (i : PInv st g gl F) (c : Ctx st g gl)
    (he : EnvOk st.env) (hs : st.epsSat = some e) (ag : st.acc gl) :
    ∃ nx p, getSearchPath st g.s0 gl = .ok ({ st with next := nx }, p) ∧ (st.fwd = false → nx = st.next) ∧
      ((p = [] ∧ maxSteps < st.g gl) ∨
      (FromTo p (envStart st.fwd g.s0 gl) (envGoal st.fwd g.s0 gl) ∧ p.Nodup ∧
        ∃ n, PathCost (st.env.succs (envGoal st.fwd g.s0 gl)) p n ∧ n ≤ st.g gl)) := by
  obtain ⟨lt, cl, _⟩ := i.sat e hs
  obtain ⟨L, hL, hl, hgv⟩ := chain_exists c.ok i.gr i.v cl (st.G gl) gl (Nat.le_refl _) ag (.inl c.qg)
    (by rw [c.hg]; omega) lt
  rw [G_acc ag] at hl lt
  have gvl : st.g gl ≤ st.v gl := by
    by_contra x
    have := cl gl c.qg (by change st.V gl < st.G gl; rw [G_acc ag, V_acc ag]; omega)
    change st.G gl < st.V gl + g.H gl at this
    rw [c.hg, G_acc ag, V_acc ag] at this
    omega
  have hv : ∀ x ∈ gl :: L, st.g x ≤ st.v x := by
    intro x hx
    rcases List.mem_cons.mp hx with rfl | hx
    · exact gvl
    · exact hgv x hx
  have nd := hL.nodup
  unfold getSearchPath envStart envGoal
  by_cases f : st.fwd = true
  rotate_left
  · simp only [if_neg f]
    have f : st.fwd = false := by simpa using f
    have lk : Link st.next (gl :: L) := by
      have := hL.link
      have e : st.ptr = st.next := by funext x; simp [ptr, f]
      rw [e] at this; exact this
    obtain ⟨k, hk⟩ := follow_spec L (eg := g.s0) maxSteps lk hL.last nd hL.fin (fun x hx _ => hv x hx)
    simp only [hk]
    by_cases sz : L.length ≤ maxSteps
    · simp only [if_pos sz]
      obtain ⟨n, p1, p2⟩ := hL.pathB (succ := st.env.succs g.s0) (by
        intro s p c ne hm
        refine he.dualP g.s0 s p c ne ?_
        have : st.base p = st.env.preds g.s0 p := by simp [base, f, i.gr.start]
        rw [this] at hm; exact hm) gl L rfl
      exact ⟨st.next, gl :: L, rfl, fun _ => rfl, .inr ⟨⟨rfl, hL.last⟩, nd, n, p1, p2⟩⟩
    · simp only [if_neg sz]
      exact ⟨st.next, [], rfl, fun _ => rfl, .inl ⟨rfl, by omega⟩⟩
  · simp only [if_pos f]
    rw [reconstruct_spec L maxSteps hL f]
    by_cases sz : L.length ≤ maxSteps
    · simp only [if_pos sz]
      have lk := setNexts_link L st.next gl nd
      have hd : (gl :: L).reverse.head? = some g.s0 := by rw [List.head?_reverse]; exact hL.last
      have hlast : (gl :: L).reverse.getLast? = some gl := by rw [List.getLast?_reverse]; rfl
      have nd' : (gl :: L).reverse.Nodup := nodup_rev nd
      obtain ⟨n, p1, p2⟩ := hL.pathF (succ := st.env.succs gl) (by
        intro s p c r e hp q hm
        cases e
        have ne : p ≠ gl := by rintro rfl; exact (List.nodup_cons.mp nd).1 hp
        have : st.base p = st.env.succs gl p := by
          simp only [base, f, if_true]; exact he.goalIndep _ _ _ (by omega) ne
        rw [this] at hm; exact hm) gl L rfl
      have fin' : ∀ x ∈ (gl :: L).reverse, st.g x < INF := by
        intro x hx; exact hL.fin x (List.mem_reverse.mp hx)
      have hv' : ∀ x ∈ (gl :: L).reverse, st.g x ≤ st.v x := by
        intro x hx; exact hv x (List.mem_reverse.mp hx)
      have len' : (gl :: L).reverse.length = L.length + 1 := by simp
      generalize (gl :: L).reverse = R at *
      cases R with
      | nil => simp at hd
      | cons a R =>
        simp only [List.head?_cons, Option.some.injEq] at hd
        subst hd
        obtain ⟨k, hk⟩ := follow_spec R (st := { st with next := setNexts st.next (gl :: L) }) (eg := gl)
          maxSteps lk hlast nd' fin' (fun x hx _ => hv' x hx)
        simp only [hk]
        have : R.length ≤ maxSteps := by simp only [List.length_cons] at len'; omega
        simp only [if_pos this]
        exact ⟨_, _ :: R, rfl, fun x => by simp [f] at x, .inr ⟨⟨rfl, hlast⟩, nd', n, p1, p2⟩⟩
    · simp only [if_neg sz]
      exact ⟨st.next, [], rfl, fun _ => rfl, .inl ⟨rfl, by omega⟩⟩

end Sbpl.AD
