import Verif.Spec.RobArm
import Mathlib.Tactic.Linarith
import Mathlib.Tactic.SplitIfs
import Mathlib.Data.List.Nodup
/-! # The 2D search of the robot arm computes step distances -/

set_option linter.unusedSectionVars false

namespace Sbpl.ArmPr
open RobArm ArmSpec BfsSpec

variable {K : Type} [Field K] [LinearOrder K] [IsStrictOrderedRing K] [FloorRing K]

theorem set2_same {α : Type} (f : Nat × Nat → α) (p : Nat × Nat) (v : α) : set2 f p v p = v := by simp [set2]
theorem set2_other {α : Type} (f : Nat × Nat → α) {p q : Nat × Nat} (v : α) (h : q ≠ p) : set2 f p v q = f q := by simp [set2, h]

theorem mem_cells {w h : Nat} {p : Nat × Nat} : p ∈ cells w h ↔ p.1 < w ∧ p.2 < h := by
  obtain ⟨x, y⟩ := p
  simp [cells]

theorem nodup_cells (w h : Nat) : (cells w h).Nodup := by
  unfold cells
  rw [List.nodup_flatMap]
  refine ⟨fun x _ => ?_, ?_⟩
  · refine List.Nodup.map_on ?_ List.nodup_range
    intro a _ b _ h
    simp only [Prod.mk.injEq] at h
    exact h.2
  · refine List.Pairwise.imp ?_ (List.nodup_range (n := w))
    intro a b hab
    simp only [Function.onFun, List.disjoint_left]
    intro p hp hq
    simp at hp hq
    obtain ⟨_, _, rfl⟩ := hp
    obtain ⟨_, _, e⟩ := hq
    cases e
    exact hab rfl

theorem length_cells (w h : Nat) : (cells w h).length = w * h := by
  unfold cells
  rw [List.length_flatMap]
  have : (List.range w).map (fun x => ((List.range h).map fun y => (x, y)).length) = List.replicate w h := by
    apply List.ext_getElem
    · simp
    · intro i h1 h2; simp
  rw [this]; simp

theorem ind_inj {c : Cfg K} {p q : Nat × Nat} (hp : InMap c p) (hq : InMap c q) (h : ind c.W p = ind c.W q) : p = q := by
  obtain ⟨x, y⟩ := p
  obtain ⟨x', y'⟩ := q
  simp only [InMap, ind] at *
  have hW : 0 < c.W := by omega
  have e1 := congrArg (· % c.W) h
  have e2 := congrArg (· / c.W) h
  simp only [Nat.add_mul_mod_self_right, Nat.mod_eq_of_lt hp.1, Nat.mod_eq_of_lt hq.1] at e1
  simp only [Nat.add_mul_div_right _ _ hW, Nat.div_eq_of_lt hp.1, Nat.div_eq_of_lt hq.1] at e2
  subst e1
  simp at e2
  rw [e2]

/-- `q` is the neighbour of `p` in direction `d`, inside the map and free -/
def Nb (c : Cfg K) (p : Nat × Nat) (d : Int × Int) (q : Nat × Nat) : Prop :=
  (q.1 : Int) = p.1 + d.1 ∧ (q.2 : Int) = p.2 + d.2 ∧ InMap c q ∧ Free c q

theorem nb_of_adj {c : Cfg K} {p q : Nat × Nat} (h : Adj c p q) (hf : Free c q) : ∃ d ∈ dirs, Nb c p d q := by
  obtain ⟨_, hq, hne, h1, h2⟩ := h
  refine ⟨((q.1 : Int) - p.1, (q.2 : Int) - p.2), ?_, by simp, by simp, hq, hf⟩
  have hne' : ¬((q.1 : Int) - p.1 = 0 ∧ (q.2 : Int) - p.2 = 0) := by
    rintro ⟨e1, e2⟩
    exact hne (Prod.ext (by omega) (by omega))
  set u : Int := (q.1 : Int) - p.1 with eu
  set v : Int := (q.2 : Int) - p.2 with ev
  have h1 : |u| ≤ 1 := by rw [← abs_neg]; simpa [u, neg_sub] using h1
  have h2 : |v| ≤ 1 := by rw [← abs_neg]; simpa [v, neg_sub] using h2
  clear_value u v
  rw [abs_le] at h1 h2
  have hu : u = -1 ∨ u = 0 ∨ u = 1 := by omega
  have hv : v = -1 ∨ v = 0 ∨ v = 1 := by omega
  unfold dirs
  rcases hu with rfl | rfl | rfl <;> rcases hv with rfl | rfl | rfl <;> simp_all

theorem adj_of_nb {c : Cfg K} {p q : Nat × Nat} {d : Int × Int} (hp : InMap c p) (hd : d ∈ dirs) (h : Nb c p d q) : Adj c p q := by
  obtain ⟨h1, h2, hq, _⟩ := h
  refine ⟨hp, hq, ?_, ?_, ?_⟩
  · rintro rfl
    have e1 : d.1 = 0 := by omega
    have e2 : d.2 = 0 := by omega
    obtain ⟨a, b⟩ := d
    simp only at e1 e2
    subst e1 e2
    simp [dirs] at hd
  all_goals
    simp [dirs] at hd
    rcases hd with rfl | rfl | rfl | rfl | rfl | rfl | rfl | rfl <;> rw [abs_le] <;> simp only at h1 h2 <;> omega

/-- number of closed cells -/
def cnt (c : Cfg K) (f : Nat × Nat → Bool) : Nat := ((cells c.W c.H).filter f).length

theorem cnt_le (c : Cfg K) (f : Nat × Nat → Bool) : cnt c f ≤ c.W * c.H := by
  rw [← length_cells]; exact List.length_filter_le _ _

theorem cnt_lt {c : Cfg K} {f : Nat × Nat → Bool} {p : Nat × Nat} (hp : InMap c p) (h : f p = false) : cnt c f < c.W * c.H := by
  rw [← length_cells]
  unfold cnt
  rcases Nat.lt_or_ge ((cells c.W c.H).filter f).length (cells c.W c.H).length with h1 | h1
  · exact h1
  · have e : (cells c.W c.H).filter f = cells c.W c.H := (List.filter_sublist).eq_of_length_le h1
    have := List.mem_filter.mp (by rw [e]; exact mem_cells.mpr hp : p ∈ (cells c.W c.H).filter f)
    rw [h] at this; simp at this

theorem filter_set {l : List (Nat × Nat)} (hn : l.Nodup) {f : Nat × Nat → Bool} {p : Nat × Nat} (hp : p ∈ l) (h : f p = false) :
    (l.filter (set2 f p true)).length = (l.filter f).length + 1 := by
  induction l with
  | nil => cases hp
  | cons a l ih =>
    rw [List.nodup_cons] at hn
    by_cases ha : a = p
    · subst ha
      have e : l.filter (set2 f a true) = l.filter f := by
        apply List.filter_congr
        intro x hx
        exact set2_other _ _ (fun e => hn.1 (e ▸ hx))
      rw [List.filter_cons_of_pos (by exact set2_same _ _ _), List.filter_cons_of_neg (by simp [h]), List.length_cons, e]
    · have hp' : p ∈ l := by
        rcases List.mem_cons.mp hp with e | e
        · exact absurd e.symm ha
        · exact e
      have e := set2_other f true ha
      by_cases hf : f a = true
      · rw [List.filter_cons_of_pos (by rw [e]; exact hf), List.filter_cons_of_pos hf, List.length_cons, List.length_cons, ih hn.2 hp']
      · rw [List.filter_cons_of_neg (by rw [e]; exact hf), List.filter_cons_of_neg hf, ih hn.2 hp']

theorem cnt_set {c : Cfg K} {f : Nat × Nat → Bool} {p : Nat × Nat} (hp : InMap c p) (h : f p = false) : cnt c (set2 f p true) = cnt c f + 1 :=
  filter_set (nodup_cells _ _) (mem_cells.mpr hp) h

/-- invariant of the search, except that the neighbours of the closed cell `ex` may still have to be visited -/
structure Mid (c : Cfg K) (o : Nat × Nat) (ex : Option (Nat × Nat)) (s : S2) : Prop where
  src : s.g o = 0
  lab : ∀ p, InMap c p → s.g p ≠ INFINITECOST → Steps (Adj c) (Free c) (· = o) p (s.g p) ∧ s.g p ≤ cnt c s.closed
  inf : ∀ p, InMap c p → s.g p ≤ INFINITECOST
  closed : ∀ p, InMap c p → s.closed p = true → s.g p ≠ INFINITECOST ∧ p ∉ s.queue
  open_ : ∀ p, InMap c p → s.g p ≠ INFINITECOST → s.closed p = true ∨ p ∈ s.queue
  qlab : ∀ p ∈ s.queue, InMap c p ∧ s.g p ≠ INFINITECOST ∧ s.closed p = false
  nodup : s.queue.Nodup
  nbs : ∀ p q, Adj c p q → Free c q → s.closed p = true → ex ≠ some p → s.g q ≠ INFINITECOST ∧ s.g q ≤ s.g p + 1
  sorted : s.queue.Pairwise (fun p q => s.g p ≤ s.g q)
  range : ∀ p ∈ s.queue, ∀ q, InMap c q → s.g q ≠ INFINITECOST → s.g q ≤ s.g p + 1
  before : ∀ p ∈ s.queue, ∀ q, InMap c q → s.closed q = true → s.g q ≤ s.g p
  heur : ∀ p, InMap c p → s.heur (ind c.W p) = if s.closed p then s.g p else INFINITECOST
  exr : ∀ e, ex = some e → InMap c e ∧ s.closed e = true ∧ (∀ q, InMap c q → s.g q ≠ INFINITECOST → s.g q ≤ s.g e + 1) ∧ (∀ q, InMap c q → s.closed q = true → s.g q ≤ s.g e) ∧
    s.g e + 1 ≤ cnt c s.closed ∧ (∀ q ∈ s.queue, s.g e ≤ s.g q)

/-- what does not change while neighbours are visited -/
def Frame (s s' : S2) : Prop := s'.xy = s.xy ∧ s'.closed = s.closed ∧ s'.heur = s.heur ∧ ∀ q, s.g q ≠ INFINITECOST → s'.g q = s.g q

variable {c : Cfg K} {o p : Nat × Nat} {s s' : S2}

theorem visit_mid (small : c.W * c.H ≤ INFINITECOST) (m : Mid c o (some p) s) {d : Int × Int} (hd : d ∈ dirs) :
    ∃ s', c.visit p p s d = .ok s' ∧ Mid c o (some p) s' ∧ Frame s s' ∧ ∀ q, Nb c p d q → s'.g q ≠ INFINITECOST ∧ s'.g q ≤ s'.g p + 1 := by
  obtain ⟨hp, pc, pr, pb, pn, pq⟩ := m.exr p rfl
  have pl : s.g p ≠ INFINITECOST := (m.closed p hp pc).1
  unfold Cfg.visit
  dsimp only
  by_cases h1 : 0 > (p.1 : Int) + d.1 ∨ (p.1 : Int) + d.1 ≥ c.W ∨ 0 > (p.2 : Int) + d.2 ∨ (p.2 : Int) + d.2 ≥ c.H
  · rw [if_pos h1]
    refine ⟨s, rfl, m, ⟨rfl, rfl, rfl, fun _ _ => rfl⟩, ?_⟩
    rintro q ⟨e1, e2, hq, _⟩
    have := hq.1; have := hq.2
    omega
  · rw [if_neg h1]
    have hq : ∃ q : Nat × Nat, q = (((p.1 : Int) + d.1).toNat, ((p.2 : Int) + d.2).toNat) := ⟨_, rfl⟩
    obtain ⟨q, eq⟩ := hq
    have e1 : (q.1 : Int) = p.1 + d.1 := by rw [eq]; simp only; omega
    have e2 : (q.2 : Int) = p.2 + d.2 := by rw [eq]; simp only; omega
    have hq : InMap c q := ⟨by omega, by omega⟩
    have uniq : ∀ q', Nb c p d q' → q' = q := by
      rintro q' ⟨u1, u2, _, _⟩
      exact Prod.ext (by omega) (by omega)
    have g1 : c.grid ((p.1 : Int) + d.1).toNat ((p.2 : Int) + d.2).toNat = c.grid q.1 q.2 := by rw [eq]
    rw [g1, ← eq]
    by_cases h2 : c.grid q.1 q.2 = 1
    · rw [if_pos h2]
      refine ⟨s, rfl, m, ⟨rfl, rfl, rfl, fun _ _ => rfl⟩, ?_⟩
      intro q' hq'
      have := uniq q' hq'
      subst this
      exact absurd h2 hq'.2.2.2
    · rw [if_neg h2]
      have nbq : Nb c p d q := ⟨e1, e2, hq, h2⟩
      have adj := adj_of_nb hp hd nbq
      by_cases h3 : s.g q = INFINITECOST
      · rw [if_neg (by rintro ⟨h, _⟩; exact h h3)]
        have hcl : s.closed q = false := by
          cases hc : s.closed q with
          | false => rfl
          | true => exact absurd h3 (m.closed q hq hc).1
        rw [if_pos ⟨hcl, h3⟩]
        have hlt : s.g p + 1 < INFINITECOST := by
          have := cnt_lt hq hcl
          omega
        have qp : q ≠ p := fun e => pl (e ▸ h3)
        have qq : q ∉ s.queue := fun h => (m.qlab q h).2.1 h3
        have gne : ∀ r, s.g r ≠ INFINITECOST → r ≠ q := fun r hr e => hr (e ▸ h3)
        have gp : set2 s.g q (s.g p + 1) p = s.g p := set2_other _ _ (fun e => qp e.symm)
        refine ⟨_, rfl, ?_, ⟨rfl, rfl, rfl, fun r hr => set2_other _ _ (gne r hr)⟩, ?_⟩
        · constructor
          · show set2 s.g q (s.g p + 1) o = 0
            rw [set2_other _ _ (gne o (by rw [m.src]; decide))]; exact m.src
          · intro r hr hg
            by_cases e : r = q
            · subst e
              show Steps _ _ _ r (set2 s.g r (s.g p + 1) r) ∧ set2 s.g r (s.g p + 1) r ≤ _
              rw [set2_same]
              exact ⟨.move (m.lab p hp pl).1 adj h2, pn⟩
            · have hg : set2 s.g q (s.g p + 1) r ≠ INFINITECOST := hg
              show Steps _ _ _ r (set2 s.g q (s.g p + 1) r) ∧ set2 s.g q (s.g p + 1) r ≤ _
              rw [set2_other _ _ e] at hg ⊢
              exact m.lab r hr hg
          · intro r hr
            show set2 s.g q (s.g p + 1) r ≤ _
            by_cases e : r = q
            · subst e; rw [set2_same]; omega
            · rw [set2_other _ _ e]; exact m.inf r hr
          · intro r hr hc
            have hc : s.closed r = true := hc
            have := m.closed r hr hc
            have e := gne r this.1
            refine ⟨?_, ?_⟩
            · show set2 s.g q (s.g p + 1) r ≠ _
              rw [set2_other _ _ e]; exact this.1
            · show r ∉ s.queue ++ [q]
              simp only [List.mem_append, List.mem_singleton, not_or]
              exact ⟨this.2, e⟩
          · intro r hr hg
            by_cases e : r = q
            · subst e; right; show r ∈ s.queue ++ [r]; simp
            · have hg : set2 s.g q (s.g p + 1) r ≠ INFINITECOST := hg
              rw [set2_other _ _ e] at hg
              rcases m.open_ r hr hg with h | h
              · exact .inl h
              · right; show r ∈ s.queue ++ [q]; exact List.mem_append_left _ h
          · intro r hr
            have hr : r ∈ s.queue ++ [q] := hr
            rcases List.mem_append.mp hr with h | h
            · have := m.qlab r h
              refine ⟨this.1, ?_, this.2.2⟩
              show set2 s.g q (s.g p + 1) r ≠ _
              rw [set2_other _ _ (gne r this.2.1)]; exact this.2.1
            · have e : r = q := by simpa using h
              subst e
              refine ⟨hq, ?_, hcl⟩
              show set2 s.g r (s.g p + 1) r ≠ _
              rw [set2_same]; omega
          · show (s.queue ++ [q]).Nodup
            rw [List.nodup_append]
            refine ⟨m.nodup, by simp, ?_⟩
            intro a ha b hb
            simp at hb
            subst hb
            exact fun e => qq (e ▸ ha)
          · intro a b hab hf hc hne
            have hc : s.closed a = true := hc
            have h := m.nbs a b hab hf hc hne
            have e1 := gne b h.1
            have e2 := gne a (m.closed a hab.1 hc).1
            show set2 s.g q (s.g p + 1) b ≠ _ ∧ set2 s.g q (s.g p + 1) b ≤ set2 s.g q (s.g p + 1) a + 1
            rw [set2_other _ _ e1, set2_other _ _ e2]; exact h
          · show (s.queue ++ [q]).Pairwise (fun a b => set2 s.g q (s.g p + 1) a ≤ set2 s.g q (s.g p + 1) b)
            rw [List.pairwise_append]
            refine ⟨?_, by simp, ?_⟩
            · refine List.Pairwise.imp_of_mem ?_ m.sorted
              intro a b ha hb hab
              rw [set2_other _ _ (gne a (m.qlab a ha).2.1), set2_other _ _ (gne b (m.qlab b hb).2.1)]; exact hab
            · intro a ha b hb
              simp at hb
              subst hb
              rw [set2_same, set2_other _ _ (gne a (m.qlab a ha).2.1)]
              exact pr a (m.qlab a ha).1 (m.qlab a ha).2.1
          · intro a ha b hb hg
            have ha : a ∈ s.queue ++ [q] := ha
            show set2 s.g q (s.g p + 1) b ≤ set2 s.g q (s.g p + 1) a + 1
            have hg : set2 s.g q (s.g p + 1) b ≠ INFINITECOST := hg
            have hb1 : set2 s.g q (s.g p + 1) b ≤ s.g p + 1 := by
              by_cases e : b = q
              · subst e; rw [set2_same]
              · rw [set2_other _ _ e] at hg ⊢; exact pr b hb hg
            have ha1 : s.g p ≤ set2 s.g q (s.g p + 1) a := by
              rcases List.mem_append.mp ha with h | h
              · rw [set2_other _ _ (gne a (m.qlab a h).2.1)]; exact pq a h
              · have e : a = q := by simpa using h
                subst e; rw [set2_same]; omega
            omega
          · intro a ha b hb hc
            have ha : a ∈ s.queue ++ [q] := ha
            have hc : s.closed b = true := hc
            show set2 s.g q (s.g p + 1) b ≤ set2 s.g q (s.g p + 1) a
            rw [set2_other _ _ (gne b (m.closed b hb hc).1)]
            rcases List.mem_append.mp ha with h | h
            · rw [set2_other _ _ (gne a (m.qlab a h).2.1)]; exact m.before a h b hb hc
            · have e : a = q := by simpa using h
              subst e; rw [set2_same]
              have := pb b hb hc
              omega
          · intro r hr
            show s.heur (ind c.W r) = if s.closed r then set2 s.g q (s.g p + 1) r else INFINITECOST
            rw [m.heur r hr]
            by_cases hc : s.closed r = true
            · rw [if_pos hc, if_pos hc, set2_other _ _ (gne r (m.closed r hr hc).1)]
            · rw [if_neg hc, if_neg hc]
          · intro e he
            cases he
            refine ⟨hp, pc, ?_, ?_, ?_, ?_⟩
            · intro b hb hg
              show set2 s.g q (s.g p + 1) b ≤ set2 s.g q (s.g p + 1) p + 1
              have hg : set2 s.g q (s.g p + 1) b ≠ INFINITECOST := hg
              rw [gp]
              by_cases e : b = q
              · subst e; rw [set2_same]
              · rw [set2_other _ _ e] at hg ⊢; exact pr b hb hg
            · intro b hb hc
              have hc : s.closed b = true := hc
              show set2 s.g q (s.g p + 1) b ≤ set2 s.g q (s.g p + 1) p
              rw [gp, set2_other _ _ (gne b (m.closed b hb hc).1)]; exact pb b hb hc
            · show set2 s.g q (s.g p + 1) p + 1 ≤ _
              rw [gp]; exact pn
            · intro a ha
              have ha : a ∈ s.queue ++ [q] := ha
              show set2 s.g q (s.g p + 1) p ≤ set2 s.g q (s.g p + 1) a
              rw [gp]
              rcases List.mem_append.mp ha with h | h
              · rw [set2_other _ _ (gne a (m.qlab a h).2.1)]; exact pq a h
              · have e : a = q := by simpa using h
                subst e; rw [set2_same]; omega
        · intro q' hq'
          have := uniq q' hq'
          subst this
          show set2 s.g q' (s.g p + 1) q' ≠ _ ∧ set2 s.g q' (s.g p + 1) q' ≤ set2 s.g q' (s.g p + 1) p + 1
          rw [set2_same, gp]
          omega
      · have hle := pr q hq h3
        rw [if_neg (by rintro ⟨_, h⟩; omega), if_neg (by rintro ⟨_, h⟩; exact h3 h)]
        refine ⟨s, rfl, m, ⟨rfl, rfl, rfl, fun _ _ => rfl⟩, ?_⟩
        intro q' hq'
        have := uniq q' hq'
        subst this
        exact ⟨h3, hle⟩

theorem visitAll_mid (small : c.W * c.H ≤ INFINITECOST) (ds : List (Int × Int)) (hds : ∀ d ∈ ds, d ∈ dirs) : ∀ {s : S2}, Mid c o (some p) s →
    ∃ s', c.visitAll p p ds s = .ok s' ∧ Mid c o (some p) s' ∧ Frame s s' ∧ ∀ d ∈ ds, ∀ q, Nb c p d q → s'.g q ≠ INFINITECOST ∧ s'.g q ≤ s'.g p + 1 := by
  induction ds with
  | nil => intro s m; exact ⟨s, rfl, m, ⟨rfl, rfl, rfl, fun _ _ => rfl⟩, fun _ h => nomatch h⟩
  | cons d ds ih =>
    intro s m
    obtain ⟨s1, e1, m1, f1, n1⟩ := visit_mid small m (hds d (List.mem_cons_self ..))
    obtain ⟨s2, e2, m2, f2, n2⟩ := ih (fun d hd => hds d (List.mem_cons_of_mem _ hd)) m1
    refine ⟨s2, ?_, m2, ⟨f2.1.trans f1.1, f2.2.1.trans f1.2.1, f2.2.2.1.trans f1.2.2.1, ?_⟩, ?_⟩
    · unfold Cfg.visitAll; rw [e1]; exact e2
    · intro q hq
      have := f1.2.2.2 q hq
      rw [← this]
      exact f2.2.2.2 q (by rw [this]; exact hq)
    · intro d' hd' q hq
      rcases List.mem_cons.mp hd' with rfl | h
      · have := n1 q hq
        obtain ⟨hp, pc, _⟩ := m1.exr p rfl
        rw [f2.2.2.2 q this.1, f2.2.2.2 p (m1.closed p hp pc).1]
        exact this
      · exact n2 d' h q hq

/-- closing the first cell of the queue -/
theorem close_mid {qs : List (Nat × Nat)} (m : Mid c o none s) (hq : s.queue = p :: qs) :
    Mid c o (some p) { s with queue := qs, closed := set2 s.closed p true, heur := upd s.heur (ind c.W p) (s.g p) } := by
  have hpq : p ∈ s.queue := by rw [hq]; exact List.mem_cons_self ..
  obtain ⟨hp, pl, pc⟩ := m.qlab p hpq
  have hn : (p :: qs).Nodup := hq ▸ m.nodup
  rw [List.nodup_cons] at hn
  have hs : (p :: qs).Pairwise (fun a b => s.g a ≤ s.g b) := hq ▸ m.sorted
  rw [List.pairwise_cons] at hs
  have sub : ∀ r ∈ qs, r ∈ s.queue := fun r hr => by rw [hq]; exact List.mem_cons_of_mem _ hr
  have hcnt : cnt c (set2 s.closed p true) = cnt c s.closed + 1 := cnt_set hp pc
  have cl : ∀ r, set2 s.closed p true r = true → r = p ∨ s.closed r = true := by
    intro r hr
    by_cases e : r = p
    · exact .inl e
    · rw [set2_other _ _ e] at hr; exact .inr hr
  have clp : ∀ r, InMap c r → set2 s.closed p true r = true → s.g r ≤ s.g p := by
    intro r hr h
    rcases cl r h with rfl | h
    · exact Nat.le_refl _
    · exact m.before p hpq r hr h
  constructor
  · exact m.src
  · intro r hr hg
    have h := m.lab r hr hg
    refine ⟨h.1, ?_⟩
    show s.g r ≤ cnt c (set2 s.closed p true)
    rw [hcnt]; exact Nat.le_succ_of_le h.2
  · exact m.inf
  · intro r hr hc
    rcases cl r hc with rfl | h
    · exact ⟨pl, hn.1⟩
    · have := m.closed r hr h
      exact ⟨this.1, fun h => this.2 (sub r h)⟩
  · intro r hr hg
    by_cases e : r = p
    · subst e; left; exact set2_same _ _ _
    · rcases m.open_ r hr hg with h | h
      · left; show set2 s.closed p true r = true; rw [set2_other _ _ e]; exact h
      · rw [hq] at h
        rcases List.mem_cons.mp h with h | h
        · exact absurd h e
        · exact .inr h
  · intro r hr
    have := m.qlab r (sub r hr)
    refine ⟨this.1, this.2.1, ?_⟩
    show set2 s.closed p true r = false
    rw [set2_other _ _ (fun e : r = p => hn.1 (e ▸ hr))]; exact this.2.2
  · exact hn.2
  · intro a b hab hf hc hne
    rcases cl a hc with rfl | h
    · exact absurd rfl hne
    · exact m.nbs a b hab hf h (by simp)
  · exact hs.2
  · intro r hr q hq' hg
    exact m.range r (sub r hr) q hq' hg
  · intro r hr q hq' hc
    exact Nat.le_trans (clp q hq' hc) (hs.1 r hr)
  · intro r hr
    show upd s.heur (ind c.W p) (s.g p) (ind c.W r) = if set2 s.closed p true r = true then s.g r else INFINITECOST
    by_cases e : r = p
    · subst e; rw [upd_same, if_pos (set2_same _ _ _)]
    · rw [upd_other _ _ (fun h => e (ind_inj hr hp h)), set2_other _ _ e]; exact m.heur r hr
  · intro e he
    cases he
    refine ⟨hp, set2_same _ _ _, fun q hq' hg => m.range p hpq q hq' hg, clp, ?_, hs.1⟩
    show s.g p + 1 ≤ cnt c (set2 s.closed p true)
    rw [hcnt]
    have := (m.lab p hp pl).2
    omega

/-- the neighbours have been visited -/
theorem Mid.done (m : Mid c o (some p) s) (h : ∀ d ∈ dirs, ∀ q, Nb c p d q → s.g q ≠ INFINITECOST ∧ s.g q ≤ s.g p + 1) : Mid c o none s :=
  { m with
    nbs := by
      intro a b hab hf hc _
      by_cases e : a = p
      · subst e
        obtain ⟨d, hd, hn⟩ := nb_of_adj hab hf
        exact h d hd b hn
      · exact m.nbs a b hab hf hc (by intro h; cases h; exact e rfl)
    exr := fun _ h => nomatch h }

/-- all cells know their own coordinates -/
def Named (c : Cfg K) (s : S2) : Prop := ∀ p, InMap c p → s.xy p = some p

theorem searchLoop_mid (small : c.W * c.H ≤ INFINITECOST) : ∀ (n : Nat) {s : S2}, Mid c o none s → Named c s → n + cnt c s.closed = c.W * c.H →
    ∃ s', c.searchLoop n s = .ok s' ∧ Mid c o none s' ∧ s'.queue = [] ∧ s'.xy = s.xy := by
  intro n
  induction n with
  | zero =>
    intro s m nm hc
    have hq : s.queue = [] := by
      cases hs : s.queue with
      | nil => rfl
      | cons p qs =>
        obtain ⟨hp, _, h⟩ := m.qlab p (by rw [hs]; exact List.mem_cons_self ..)
        have := cnt_lt hp h
        omega
    exact ⟨s, by unfold Cfg.searchLoop; rw [if_pos hq], m, hq, rfl⟩
  | succ n ih =>
    intro s m nm hc
    unfold Cfg.searchLoop
    cases hs : s.queue with
    | nil => exact ⟨s, rfl, m, hs, rfl⟩
    | cons p qs =>
      obtain ⟨hp, _, hcl⟩ := m.qlab p (by rw [hs]; exact List.mem_cons_self ..)
      dsimp only
      rw [if_neg (by rw [hcl]; simp), nm p hp]
      dsimp only
      obtain ⟨s1, e1, m1, f1, n1⟩ := visitAll_mid small dirs (fun _ h => h) (close_mid m hs)
      rw [e1]
      dsimp only
      have nm1 : Named c s1 := by
        intro q hq
        rw [f1.1]; exact nm q hq
      obtain ⟨s2, e2, m2, q2, x2⟩ := ih (m1.done n1) nm1 (by
        rw [f1.2.1]
        show n + cnt c (set2 s.closed p true) = _
        rw [cnt_set hp hcl]; omega)
      exact ⟨s2, e2, m2, q2, x2.trans f1.1⟩

/-- the initialisation loop -/
theorem init_fold (c : Cfg K) (l : List (Nat × Nat)) : ∀ (s : S2),
    let s1 := l.foldl (fun s p => { s with heur := upd s.heur (ind c.W p) INFINITECOST, g := set2 s.g p INFINITECOST, closed := set2 s.closed p false }) s
    s1.xy = s.xy ∧ s1.queue = s.queue ∧ (∀ p, p ∈ l → s1.g p = INFINITECOST ∧ s1.closed p = false ∧ s1.heur (ind c.W p) = INFINITECOST) ∧
    (∀ p, (s.g p = INFINITECOST → s1.g p = INFINITECOST) ∧ (s.closed p = false → s1.closed p = false) ∧ (s.heur (ind c.W p) = INFINITECOST → s1.heur (ind c.W p) = INFINITECOST)) := by
  induction l with
  | nil => intro s; exact ⟨rfl, rfl, fun _ h => (nomatch h), fun _ => ⟨id, id, id⟩⟩
  | cons a l ih =>
    intro s
    simp only [List.foldl_cons]
    obtain ⟨h1, h2, h3, h4⟩ := ih { s with heur := upd s.heur (ind c.W a) INFINITECOST, g := set2 s.g a INFINITECOST, closed := set2 s.closed a false }
    refine ⟨h1, h2, ?_, ?_⟩
    · intro p hp
      rcases List.mem_cons.mp hp with rfl | h
      · exact ⟨(h4 p).1 (set2_same _ _ _), (h4 p).2.1 (set2_same _ _ _), (h4 p).2.2 (upd_same _ _ _)⟩
      · exact h3 p h
    · intro p
      refine ⟨fun h => (h4 p).1 ?_, fun h => (h4 p).2.1 ?_, fun h => (h4 p).2.2 ?_⟩
      · show set2 s.g a INFINITECOST p = _
        by_cases e : p = a
        · subst e; exact set2_same _ _ _
        · rw [set2_other _ _ e]; exact h
      · show set2 s.closed a false p = _
        by_cases e : p = a
        · subst e; exact set2_same _ _ _
        · rw [set2_other _ _ e]; exact h
      · show upd s.heur (ind c.W a) INFINITECOST (ind c.W p) = _
        by_cases e : ind c.W p = ind c.W a
        · rw [e, upd_same]
        · rw [upd_other _ _ e]; exact h

theorem dist_of_mid (m : Mid c o none s) (hq : s.queue = []) (ho : InMap c o) {p : Nat × Nat} (hp : InMap c p) : IsDist c o p (s.heur (ind c.W p)) := by
  have cl : ∀ r, InMap c r → s.g r ≠ INFINITECOST → s.closed r = true := by
    intro r hr hg
    rcases m.open_ r hr hg with h | h
    · exact h
    · rw [hq] at h; cases h
  have key : ∀ r n, Steps (Adj c) (Free c) (· = o) r n → InMap c r ∧ s.g r ≠ INFINITECOST ∧ s.g r ≤ n := by
    intro r n h
    induction h with
    | source h => subst h; rw [m.src]; exact ⟨ho, by decide, Nat.le_refl _⟩
    | move _ hadj hf ih =>
      have := m.nbs _ _ hadj hf (cl _ ih.1 ih.2.1) (by simp)
      refine ⟨hadj.2.1, this.1, ?_⟩
      have := this.2
      have := ih.2.2
      omega
  rw [m.heur p hp]
  by_cases hg : s.g p = INFINITECOST
  · rw [if_neg (fun h => (m.closed p hp h).1 hg)]
    exact .inr ⟨rfl, fun n h => (key p n h).2.1 hg⟩
  · rw [if_pos (cl p hp hg)]
    exact .inl ⟨(m.lab p hp hg).1, fun n h => (key p n h).2.2⟩

theorem search2D_spec (small : c.W * c.H ≤ INFINITECOST) (nm : Named c s) (ho : InMap c o) :
    ∃ s', c.search2D s o = .ok s' ∧ s'.xy = s.xy ∧ ∀ p, InMap c p → IsDist c o p (s'.heur (ind c.W p)) := by
  obtain ⟨h1, h2, h3, _⟩ := init_fold c (cells c.W c.H) { s with queue := [] }
  generalize hs1 : (cells c.W c.H).foldl (fun s p => { s with heur := upd s.heur (ind c.W p) INFINITECOST, g := set2 s.g p INFINITECOST, closed := set2 s.closed p false }) { s with queue := [] } = s1 at h1 h2 h3
  have h3 : ∀ p, InMap c p → s1.g p = INFINITECOST ∧ s1.closed p = false ∧ s1.heur (ind c.W p) = INFINITECOST := fun p hp => h3 p (mem_cells.mpr hp)
  have h1 : s1.xy = s.xy := h1
  have m0 : Mid c o none { s1 with g := set2 s1.g o 0, queue := [o] } := by
    have gi : ∀ p, InMap c p → set2 s1.g o 0 p ≠ INFINITECOST → p = o := by
      intro p hp h
      by_cases e : p = o
      · exact e
      · rw [set2_other _ _ e] at h; exact absurd (h3 p hp).1 h
    have nc : ∀ p, InMap c p → s1.closed p ≠ true := fun p hp h => by rw [(h3 p hp).2.1] at h; cases h
    constructor
    · exact set2_same _ _ _
    · intro p hp hg
      have := gi p hp hg
      subst this
      show Steps _ _ _ p (set2 s1.g p 0 p) ∧ set2 s1.g p 0 p ≤ _
      rw [set2_same]
      exact ⟨.source rfl, Nat.zero_le _⟩
    · intro p hp
      show set2 s1.g o 0 p ≤ _
      by_cases e : p = o
      · subst e; rw [set2_same]; exact Nat.zero_le _
      · rw [set2_other _ _ e, (h3 p hp).1]
    · intro p hp h; exact absurd h (nc p hp)
    · intro p hp hg; right; show p ∈ [o]; rw [gi p hp hg]; simp
    · intro p hp
      have : p = o := by simpa using hp
      subst this
      refine ⟨ho, ?_, (h3 p ho).2.1⟩
      show set2 s1.g p 0 p ≠ _
      rw [set2_same]; decide
    · show [o].Nodup; simp
    · intro a b hab _ h; exact absurd h (nc a hab.1)
    · show [o].Pairwise _; simp
    · intro p hp q hq hg
      have := gi q hq hg
      subst this
      show set2 s1.g q 0 q ≤ _
      rw [set2_same]; exact Nat.zero_le _
    · intro p _ q hq h; exact absurd h (nc q hq)
    · intro p hp
      show s1.heur (ind c.W p) = if s1.closed p then set2 s1.g o 0 p else INFINITECOST
      rw [(h3 p hp).2.2, if_neg (nc p hp)]
    · intro e h; cases h
  obtain ⟨s', e, m, hq, hx⟩ := searchLoop_mid small (c.W * c.H) m0 (by intro p hp; show s1.xy p = _; rw [h1]; exact nm p hp) (by
    show c.W * c.H + cnt c s1.closed = _
    have : cnt c s1.closed = 0 := by
      unfold cnt
      rw [List.length_eq_zero_iff, List.filter_eq_nil_iff]
      intro p hp
      rw [(h3 p (mem_cells.mp hp)).2.1]; simp
    omega)
  refine ⟨s', ?_, hx.trans h1, fun p hp => dist_of_mid m hq ho hp⟩
  unfold Cfg.search2D
  dsimp only
  rw [hs1]; exact e

theorem heurLoop_spec (small : c.W * c.H ≤ INFINITECOST) (os : List (Nat × Nat)) (hos : ∀ o ∈ os, InMap c o) (done : Nat × Nat → Prop) :
    ∀ {s : S2} {h : Nat → Nat → Nat}, Named c s → (∀ o, InMap c o → done o → ∀ p, InMap c p → IsDist c o p (h (ind c.W o) (ind c.W p))) →
    ∃ h', c.heurLoop os s h = .ok h' ∧ ∀ o, InMap c o → (done o ∨ o ∈ os) → ∀ p, InMap c p → IsDist c o p (h' (ind c.W o) (ind c.W p)) := by
  induction os generalizing done with
  | nil => intro s h _ hd; exact ⟨h, rfl, fun o ho h' => hd o ho (h'.resolve_right (by simp))⟩
  | cons o os ih =>
    intro s h nm hd
    have ho := hos o (List.mem_cons_self ..)
    obtain ⟨s1, e1, x1, d1⟩ := search2D_spec small (s := { s with heur := h (ind c.W o) }) nm ho
    obtain ⟨h', e', d'⟩ := ih (fun o h => hos o (List.mem_cons_of_mem _ h)) (fun r => done r ∨ r = o) (s := s1) (h := upd h (ind c.W o) s1.heur)
      (by intro p hp; rw [x1]; exact nm p hp) (by
        intro r hr hdr p hp
        by_cases e : r = o
        · subst e; rw [upd_same]; exact d1 p hp
        · rw [upd_other _ _ (fun h => e (ind_inj hr ho h))]
          exact hd r hr (hdr.resolve_right e) p hp)
    refine ⟨h', ?_, ?_⟩
    · unfold Cfg.heurLoop; rw [e1]; exact e'
    · intro r hr h p hp
      refine d' r hr ?_ p hp
      rcases h with h | h
      · exact .inl (.inl h)
      · rcases List.mem_cons.mp h with h | h
        · exact .inl (.inr h)
        · exact .inr h

theorem createLoop_ok {H : Nat} (ps : List (Nat × Nat)) (hp : ∀ p ∈ ps, p.2 < H) : ∀ f, ∃ f', createLoop H ps f = .ok f' ∧
    ∀ p, f' p = if p ∈ ps then some (u16 p.1, u16 p.2) else f p := by
  induction ps with
  | nil => intro f; exact ⟨f, rfl, fun p => by simp⟩
  | cons a ps ih =>
    intro f
    obtain ⟨f', e, h⟩ := ih (fun p h => hp p (List.mem_cons_of_mem _ h)) (set2 f a (some (u16 a.1, u16 a.2)))
    refine ⟨f', ?_, ?_⟩
    · unfold createLoop; rw [if_pos (hp a (List.mem_cons_self ..))]; exact e
    · intro p
      rw [h p]
      by_cases h1 : p ∈ ps
      · rw [if_pos h1, if_pos (List.mem_cons_of_mem _ h1)]
      · rw [if_neg h1]
        by_cases e : p = a
        · subst e; rw [set2_same, if_pos (List.mem_cons_self ..)]
        · rw [set2_other _ _ e, if_neg (by simp [h1, e])]

theorem createLoop_err {H : Nat} (ps : List (Nat × Nat)) (hp : ∃ p ∈ ps, ¬ p.2 < H) : ∀ f, createLoop H ps f = .error .outOfBounds := by
  induction ps with
  | nil => obtain ⟨p, h, _⟩ := hp; cases h
  | cons a ps ih =>
    intro f
    unfold createLoop
    by_cases h : a.2 < H
    · rw [if_pos h]
      apply ih
      obtain ⟨p, h1, h2⟩ := hp
      rcases List.mem_cons.mp h1 with rfl | h1
      · exact absurd h h2
      · exact ⟨p, h1, h2⟩
    · rw [if_neg h]

theorem u16_small {n : Nat} (h : n < 65536) : u16 n = n := by
  unfold u16
  omega

/-- maps that are wider than high: an array is written out of bounds -/
theorem computeHeur_wide (h : c.H < c.W) (junk : Nat → Nat → Nat) : c.computeHeur junk = .error .outOfBounds := by
  unfold Cfg.computeHeur createSpace
  rw [createLoop_err _ ⟨(0, c.H), mem_cells.mpr ⟨by simp only; omega, h⟩, by simp⟩]

/-- square maps -/
theorem computeHeur_square (small : c.W * c.H ≤ INFINITECOST) (w16 : c.W ≤ 65536) (h : c.H = c.W) (junk : Nat → Nat → Nat) :
    ∃ h', c.computeHeur junk = .ok h' ∧ ∀ o p, InMap c o → InMap c p → IsDist c o p (h' (ind c.W o) (ind c.W p)) := by
  unfold Cfg.computeHeur createSpace
  obtain ⟨f, e, hf⟩ := createLoop_ok (H := c.H) (cells c.W c.W) (fun p hp => by rw [h]; exact (mem_cells.mp hp).2) (fun _ => none)
  rw [e]
  dsimp only
  obtain ⟨h', e', d⟩ := heurLoop_spec small (cells c.W c.H) (fun o ho => mem_cells.mp ho) (fun _ => False) (s := ⟨f, fun _ => 0, fun _ => false, fun _ => 0, []⟩) (h := junk)
    (by
      intro p hp
      have hp1 := hp.1
      have hp2 := hp.2
      show f p = some p
      rw [hf, if_pos (mem_cells.mpr ⟨hp1, by omega⟩), u16_small (by omega), u16_small (by omega)])
    (fun _ _ h => absurd h id)
  exact ⟨h', e', fun o p ho hp => d o ho (.inr (mem_cells.mpr ho)) p hp⟩

/-- the first cell that a search expands -/
theorem search2D_uninit (s : S2) (o : Nat × Nat) (ho : InMap c o) (hx : s.xy o = none) : c.search2D s o = .error .uninitialised := by
  unfold Cfg.search2D
  dsimp only
  obtain ⟨h1, h2, h3, _⟩ := init_fold c (cells c.W c.H) { s with queue := [] }
  generalize (cells c.W c.H).foldl (fun s p => { s with heur := upd s.heur (ind c.W p) INFINITECOST, g := set2 s.g p INFINITECOST, closed := set2 s.closed p false }) { s with queue := [] } = s1 at h1 h2 h3
  have hc := (h3 o (mem_cells.mpr ho)).2.1
  have h1 : s1.xy = s.xy := h1
  obtain ⟨n, hn⟩ : ∃ n, c.W * c.H = n + 1 := by
    have := Nat.mul_pos (Nat.lt_of_le_of_lt (Nat.zero_le _) ho.1) (Nat.lt_of_le_of_lt (Nat.zero_le _) ho.2)
    exact ⟨c.W * c.H - 1, by omega⟩
  rw [hn]
  unfold Cfg.searchLoop
  dsimp only
  rw [if_neg (by rw [hc]; simp), h1, hx]

theorem visit_xy {p xy : Nat × Nat} {d : Int × Int} (h : c.visit p xy s d = .ok s') : s'.xy = s.xy := by
  unfold Cfg.visit at h
  dsimp only at h
  split_ifs at h <;> first | (cases h; rfl) | cases h

theorem visitAll_xy {p xy : Nat × Nat} (ds : List (Int × Int)) : ∀ {s : S2}, c.visitAll p xy ds s = .ok s' → s'.xy = s.xy := by
  induction ds with
  | nil => intro s h; cases h; rfl
  | cons d ds ih =>
    intro s h
    unfold Cfg.visitAll at h
    cases h1 : c.visit p xy s d with
    | error e => rw [h1] at h; cases h
    | ok s1 => rw [h1] at h; exact (ih h).trans (visit_xy h1)

theorem searchLoop_xy : ∀ (n : Nat) {s : S2}, c.searchLoop n s = .ok s' → s'.xy = s.xy := by
  intro n
  induction n with
  | zero => intro s h; unfold Cfg.searchLoop at h; split at h <;> cases h; rfl
  | succ n ih =>
    intro s h
    unfold Cfg.searchLoop at h
    cases hq : s.queue with
    | nil => rw [hq] at h; cases h; rfl
    | cons p qs =>
      rw [hq] at h
      dsimp only at h
      by_cases hc : s.closed p = true
      · rw [if_pos hc] at h; exact ih (s := { s with queue := qs }) h
      · rw [if_neg hc] at h
        cases hx : s.xy p with
        | none => rw [hx] at h; cases h
        | some xy =>
          rw [hx] at h
          dsimp only at h
          generalize h1 : c.visitAll p xy dirs _ = r at h
          cases r with
          | error e => cases h
          | ok s1 =>
            have := ih h
            rw [this, visitAll_xy _ h1]

theorem search2D_xy (h : c.search2D s o = .ok s') : s'.xy = s.xy := by
  unfold Cfg.search2D at h
  have := searchLoop_xy _ h
  rw [this]
  exact (init_fold c (cells c.W c.H) { s with queue := [] }).1

theorem heurLoop_uninit (os : List (Nat × Nat)) (ho : InMap c o) (hm : o ∈ os) : ∀ {s : S2} {h : Nat → Nat → Nat}, s.xy o = none →
    ∃ e, c.heurLoop os s h = .error e := by
  induction os with
  | nil => cases hm
  | cons a os ih =>
    intro s h hx
    unfold Cfg.heurLoop
    by_cases e : a = o
    · subst e
      rw [search2D_uninit { s with heur := h (ind c.W a) } a ho hx]
      exact ⟨_, rfl⟩
    · cases hs : c.search2D { s with heur := h (ind c.W a) } a with
      | error e => exact ⟨e, rfl⟩
      | ok s1 =>
        dsimp only
        refine ih ?_ ?_
        · rcases List.mem_cons.mp hm with h | h
          · exact absurd h.symm e
          · exact h
        · rw [search2D_xy hs]; exact hx

/-- maps that are higher than wide: an uninitialised cell is read -/
theorem computeHeur_high (h : c.W < c.H) (hW : 0 < c.W) (junk : Nat → Nat → Nat) : ∃ e, c.computeHeur junk = .error e := by
  unfold Cfg.computeHeur createSpace
  obtain ⟨f, e, hf⟩ := createLoop_ok (H := c.H) (cells c.W c.W) (fun p hp => by have := (mem_cells.mp hp).2; omega) (fun _ => none)
  rw [e]
  refine heurLoop_uninit (o := (0, c.W)) _ ⟨hW, h⟩ (mem_cells.mpr ⟨hW, h⟩) ?_
  show f (0, c.W) = none
  rw [hf, if_neg (by rw [mem_cells]; simp)]

end Sbpl.ArmPr
