import Verif.Proofs.ANA
import Verif.Proofs.LazyARATerm
/-! ANA*: ImprovePath. -/

namespace Sbpl.ANA
open GraphSpec Heap

/-- termination measure over the states `U` -/
def mu (U : List Nat) (st : ANA) : Nat := 2 * (U.map st.Ge).sum + st.heap.size

def Pos (st : ANA) : Prop := ∀ u t c, (t, c) ∈ st.base u → 1 ≤ c

/-- expansion lists agree with the search graph except at the goal -/
def NbrOk (st : ANA) (gl : Nat) : Prop := ∀ s, s ≠ gl → ∀ e, e ∈ st.nbr s ↔ e ∈ st.base s

theorem NbrOk.frame {a b : ANA} {gl : Nat} (h : NbrOk a gl) (f : Frame a b) : NbrOk b gl := by
  intro s n e; rw [f.nbr, f.base]; exact h s n e

theorem Relaxed.mu {st r : ANA} {s t c : Nat} (h : Relaxed st r s t c) {U : List Nat} (nd : U.Nodup) (ht : t ∈ U) :
    mu U r ≤ mu U st := by
  unfold ANA.mu
  rcases h.cases with ⟨e1, e2⟩ | ⟨e1, e2, e3, e4, _⟩
  · rw [e2, show r.Ge = st.Ge from funext e1]
  · have := LazyARA.sum_at (U := U) (s := t) (a := 1) (b := 0) (f := r.Ge) (g := st.Ge) nd ht (fun u q => Nat.le_of_eq (e3 u q)) (by omega)
    omega

/-- effect of UpdateSuccs/UpdatePreds -/
structure Updated (st r : ANA) (s : Nat) (es : List (Nat × Nat)) : Prop where
  frame : Frame st r
  data : Data r
  best : r.bestG = st.bestG
  eps : r.epsSat = st.epsSat
  gs : r.g s = st.g s
  vs : r.v s = st.v s
  ve : ∀ u, r.Ve u = st.Ve u
  keys : Keys st → Keys r
  hs : ∀ u, st.acc u → r.h u = st.h u
  hnew : ∀ gl, st.goal = some gl → ∀ u, ¬ st.acc u → r.acc u → r.h u = st.heur gl u
  opnG : ∀ u, r.Opn u → (st.Opn u ∧ r.g u = st.g u) ∨ ∃ c, (u, c) ∈ es ∧ r.g u = st.g s + c
  opnM : ∀ u, st.Opn u → r.Opn u
  imp : ∀ u, r.Ge u = st.Ge u ∨ (r.Opn u ∧ r.h u + r.g u < st.bestG ∧ r.g u < st.Ge u)
  mu : ∀ U : List Nat, U.Nodup → (∀ e ∈ es, e.1 ∈ U) → mu U r ≤ mu U st

theorem updateAll_spec {s0 s : Nat} (es : List (Nat × Nat)) : ∀ {st : ANA}, Data st → Core st s0 → st.acc s →
    st.g s = st.v s → (∀ e ∈ es, e ∈ st.base s) →
    OkOr (st.updateAll s es) (fun r => Updated st r s es ∧ Core r s0 ∧
      ∀ gl, st.goal = some gl → Live st gl s es → Live r gl s []) := by
  induction es with
  | nil =>
    intro st d c a e h
    exact ⟨⟨Frame.refl _, d, rfl, rfl, rfl, rfl, fun _ => rfl, fun k => k, fun _ _ => rfl,
      fun _ _ u h1 h2 => absurd h2 h1, fun u h => .inl ⟨h, rfl⟩, fun u h => h, fun u => .inl rfl, fun _ _ _ => Nat.le_refl _⟩, c, fun _ _ l => l⟩
  | cons x es ih =>
    obtain ⟨t, c⟩ := x
    intro st d co a gv h
    have u1 := updateOne_spec (t := t) (c := c) d co a gv (h _ (by simp))
    unfold updateAll
    cases e : st.updateOne s t c with
    | error x => rw [e] at u1; exact u1
    | ok st1 =>
      rw [e] at u1
      obtain ⟨rl, c1, l1⟩ := u1
      simp only
      have a1 := rl.frame.accM s a
      refine (ih rl.data c1 a1 (by rw [rl.gs, rl.vs]; exact gv)
        (fun e he => by rw [rl.frame.base]; exact h e (by simp [he]))).imp ?_
      rintro r ⟨u, cr, lr⟩
      refine ⟨⟨rl.frame.trans u.frame, u.data, u.best.trans rl.best, u.eps.trans rl.eps, u.gs.trans rl.gs,
        u.vs.trans rl.vs, fun w => (u.ve w).trans (rl.ve w), fun k => u.keys (rl.keys k),
        fun w hw => (u.hs w (rl.frame.accM w hw)).trans (rl.hs w hw), ?_, ?_, fun w hw => u.opnM w (rl.opnM w hw), ?_, ?_⟩,
        cr, ?_⟩
      · intro gl hg w h1 h2
        by_cases q : st1.acc w
        · rw [u.hs w q]; exact rl.hnew gl hg w h1 q
        · rw [u.hnew gl (by rw [rl.frame.goal]; exact hg) w q h2, rl.frame.heur]
      · intro w hw
        rcases u.opnG w hw with ⟨q1, q2⟩ | ⟨c', q1, q2⟩
        · rcases rl.cases with ⟨g1, g2⟩ | ⟨g1, g2, g3, g4, g5, g6, g7⟩
          · have ho : st.Opn w := by rw [Opn, g2] at q1; exact q1
            have aw := d.opnAcc ho
            left
            refine ⟨ho, ?_⟩
            have := g1 w
            rw [Ge_acc (rl.frame.accM w aw), Ge_acc aw] at this
            rw [q2, this]
          · by_cases q : w = t
            · subst q
              right
              refine ⟨c, by simp, ?_⟩
              rw [q2]; rw [Ge_acc rl.accT] at g1; exact g1
            · have ho : st.Opn w := (rl.opn w q1).resolve_right q
              have aw := d.opnAcc ho
              left
              refine ⟨ho, ?_⟩
              have := g3 w q
              rw [Ge_acc (rl.frame.accM w aw), Ge_acc aw] at this
              rw [q2, this]
        · right
          exact ⟨c', by simp [q1], by rw [q2, rl.gs]⟩
      · intro w
        rcases u.imp w with q | ⟨q1, q2, q3⟩
        · rcases rl.cases with ⟨g1, g2⟩ | ⟨g1, g2, g3, g4, g5, g6, g7⟩
          · left; rw [q, g1]
          · by_cases z : w = t
            · subst z
              right
              have aw := rl.accT
              have e1 : r.g w = st1.g w := by
                rw [Ge_acc (u.frame.accM w aw), Ge_acc aw] at q; exact q
              refine ⟨u.opnM w g5, by rw [u.hs w aw, e1]; exact g6, ?_⟩
              rw [e1, ← Ge_acc aw, g1]; exact g2
            · left; rw [q, g3 w z]
        · right
          have := rl.frame.gLe w
          exact ⟨q1, by rw [← rl.best]; exact q2, by omega⟩
      · intro U nd hU
        exact Nat.le_trans (u.mu U nd (fun e he => hU e (by simp [he]))) (rl.mu nd (hU (t, c) (by simp)))
      · intro gl g l
        exact lr gl (by rw [rl.frame.goal]; exact g) (l1 gl es g l)

theorem reach {st : ANA} {s0 : Nat} (c : Core st s0) (pos : Pos st) (n : Nat) :
    ∀ s, st.g s ≤ n → st.acc s → st.g s < INF → ∃ k, Walk st.base s0 s k ∧ k ≤ st.g s := by
  induction n with
  | zero =>
    intro s h a lt
    by_cases q : s = s0
    · subst q; exact ⟨0, .nil, by omega⟩
    · obtain ⟨p, k, h1, h2, h3, h4⟩ := c.ptrOk s a lt q
      have := pos p s k h2
      omega
  | succ n ih =>
    intro s h a lt
    by_cases q : s = s0
    · subst q; exact ⟨0, .nil, by omega⟩
    · obtain ⟨p, k, h1, h2, h3, h4⟩ := c.ptrOk s a lt q
      have h5 := pos p s k h2
      have h6 := c.gv p h3
      obtain ⟨m, w, hm⟩ := ih p (by omega) h3 (by omega)
      exact ⟨m + k, w.snoc h2, by omega⟩

/-- `h` drops along every edge by at most its cost -/
def Cons (st : ANA) (gl : Nat) : Prop := ∀ u t c, (t, c) ∈ st.base u → st.heur gl u ≤ st.heur gl t + c

structure LoopPost (st : ANA) (s0 gl b : Nat) (r : ANA) (tr : List Nat) : Prop where
  frame : Frame st r
  data : Data r
  core : Core r s0
  eps : r.epsSat = st.epsSat
  live : Live st gl 0 [] → Live r gl 0 []
  best : (r = st ∧ tr = [] ∧ (b = 0 ∨ st.heap.size = 0)) ∨ r.bestG = r.g gl
  noGoal : gl ∉ tr
  rch : Pos st → ∀ s ∈ tr, ∃ k, Walk st.base s0 s k
  /-- f-values in OPEN do not drop below a lower bound -/
  low : ∀ L, HOk st gl → Cons st gl → (∀ o, st.Opn o → L ≤ st.g o + st.h o) → ∀ o, r.Opn o → L ≤ r.g o + r.h o
  hok : HOk st gl → HOk r gl
  fin : Pos st → ∀ U : List Nat, U.Nodup → (∀ u k, Walk st.base s0 u k → u ∈ U) →
    (r.heap.size = 0 ∨ r.Ge gl < INF ∨ mu U r + b ≤ mu U st) ∧
    mu U r ≤ mu U st ∧ (b ≠ 0 → st.heap.size ≠ 0 → mu U r + 1 ≤ mu U st)

theorem Live.weak {st : ANA} {gl x y : Nat} (l : Live st gl x []) : Live st gl y [] :=
  ⟨l.hok, l.gG, l.vGoal, fun u t c h => (l.edge u t c h).elim (fun q => by simp at q) .inr, l.pend⟩

/-- setting G to a smaller value, at least g(goal) -/
theorem Live.lower {st : ANA} {gl x m : Nat} (l : Live st gl x []) (h1 : st.Ge gl ≤ m) (h2 : m ≤ st.bestG) :
    Live { st with bestG := m } gl x [] := by
  refine ⟨l.hok, h1, l.vGoal, ?_, ?_⟩
  · intro u t c h
    show _ ∨ st.Ge t ≤ st.Ve u + c ∨ m ≤ st.Ve u + c + st.heur gl t
    rcases l.edge u t c h with q | q | q
    · exact .inl q
    · exact .inr (.inl q)
    · exact .inr (.inr (by omega))
  · intro s a lt
    rcases l.pend s a lt with q | q
    · exact .inl q
    · exact .inr (Nat.le_trans h2 q)

theorem improveLoop_spec {s0 gl : Nat} (b : Nat) : ∀ {st : ANA}, Data st → Core st s0 → NbrOk st gl →
    st.acc gl → st.goal = some gl →
    OkOr (improveLoop gl b st) (fun r => LoopPost st s0 gl b r.1 r.2) := by
  induction b with
  | zero =>
    intro st d c _ _ _
    exact ⟨Frame.refl _, d, c, rfl, fun l => l, .inl ⟨rfl, rfl, .inl rfl⟩, by simp, by simp, fun _ _ _ h => h,
      fun h => h, fun _ U _ _ => ⟨.inr (.inr (Nat.le_refl _)), Nat.le_refl _, fun h => absurd rfl h⟩⟩
  | succ b ih =>
    intro st d c hn ag hg
    unfold improveLoop
    by_cases he : st.heap.size = 0
    · rw [if_pos (by simp [isEmpty, he])]
      exact ⟨Frame.refl _, d, c, rfl, fun l => l, .inl ⟨rfl, rfl, .inr he⟩, by simp, by simp, fun _ _ _ h => h,
        fun h => h, fun _ U _ _ => ⟨.inl he, Nat.le_refl _, fun _ h => absurd he h⟩⟩
    rw [if_neg (by simp [isEmpty, he])]
    cases e : st.heap.deleteMin with
    | error x => unfold deleteMin at e; rw [if_neg he] at e; cases e
    | ok q =>
      obtain ⟨s, h⟩ := q
      obtain ⟨m1, m2, m3, m4, _, ⟨k, m6, _, _⟩⟩ := deleteMin_spec d.bp d.ord e
      have so : st.Opn s := by rw [Opn, m6]; simp
      have as := d.opnAcc so
      have sfin := c.opnFin s so
      have opn1 : ∀ u, keyOf h u ≠ none ↔ u ≠ s ∧ st.Opn u := by
        intro u; rw [m2]
        by_cases q : u = s
        · subst q; simp
        · rw [upd_other _ _ q]; simp [q, Opn]
      have d1 : Data { st with heap := h } := by
        refine ⟨m1, m4, d.callLe, ?_⟩
        intro u hu
        by_contra q
        exact (((opn1 u).mp q).2) (d.staleH u hu)
      have c1 : Core { st with heap := h } s0 :=
        ⟨c.startAcc, c.startG, c.gv, c.vInf, c.ptrOk, fun u hu => c.opnFin u ((opn1 u).mp hu).2, c.bestLe⟩
      simp only
      by_cases sg : s = gl
      · rw [if_pos sg]
        subst sg
        have bl : ∀ l : Live st s 0 [], Live { st with heap := h, bestG := st.g s } s 0 [] := by
          intro l
          have gl' := l.gG
          rw [Ge_acc as] at gl'
          refine ⟨l.hok, Nat.le_of_eq (Ge_acc as), l.vGoal, ?_, ?_⟩
          · intro u t c' hm
            show _ ∨ st.Ge t ≤ st.Ve u + c' ∨ st.g s ≤ st.Ve u + c' + st.heur s t
            rcases l.edge u t c' hm with q | q | q
            · exact .inl q
            · exact .inr (.inl q)
            · exact .inr (.inr (by omega))
          · intro u hu lt
            show keyOf h u ≠ none ∨ st.g s ≤ st.g u + st.heur s u
            by_cases q : u = s
            · subst q; exact .inr (by omega)
            · rcases l.pend u hu lt with z | z
              · exact .inl ((opn1 u).mpr ⟨q, z⟩)
              · exact .inr (by omega)
        refine ⟨⟨rfl, rfl, rfl, rfl, rfl, rfl, rfl, fun _ h => h, fun _ => Nat.le_refl _⟩, ⟨d1.bp, d1.ord, d1.callLe, d1.staleH⟩,
          ⟨c1.startAcc, c1.startG, c1.gv, c1.vInf, c1.ptrOk, c1.opnFin, Nat.le_of_lt sfin⟩, rfl, bl, .inr rfl, by simp, by simp, ?_, fun h => h, ?_⟩
        · intro L _ _ hl o ho
          exact hl o ((opn1 o).mp ho).2
        · intro _ U nd _
          have e0 : mu U ({ st with heap := h, bestG := st.g s } : ANA) + 1 = mu U st := by
            unfold mu
            show 2 * (U.map st.Ge).sum + h.size + 1 = _
            omega
          exact ⟨.inr (.inl (by show st.Ge s < INF; rw [Ge_acc as]; exact sfin)), Nat.le_of_lt (Nat.lt_of_succ_le (Nat.le_of_eq e0)), fun _ _ => Nat.le_of_eq e0⟩
      · rw [if_neg sg]
        generalize hx : ({ st with heap := h, v := upd st.v s (st.g s) } : ANA) = x
        have hx' : ({ ({ st with heap := h } : ANA) with v := upd ({ st with heap := h } : ANA).v s (({ st with heap := h } : ANA).g s) } : ANA) = x := hx
        try rw [hx']
        have xacc : ∀ u, x.acc u ↔ st.acc u := by intro u; rw [← hx]; exact Iff.rfl
        have xg : x.g = st.g := by rw [← hx]
        have xh : x.h = st.h := by rw [← hx]
        have xbest : x.bestG = st.bestG := by rw [← hx]
        have xheap : x.heap = h := by rw [← hx]
        have xbase : x.base = st.base := by rw [← hx]; rfl
        have xheur : x.heur = st.heur := by rw [← hx]; rfl
        have xptr : x.ptr = st.ptr := by rw [← hx]; rfl
        have xvs : x.v s = st.g s := by rw [← hx]; exact upd_same _ _ _
        have xv : ∀ u, u ≠ s → x.v u = st.v u := by intro u q; rw [← hx]; exact upd_other _ _ q
        have xGe : x.Ge = st.Ge := by funext u; simp only [Ge, xacc, xg]
        have fr0 : Frame st x := by
          constructor
          case accM => exact fun u hu => (xacc u).mpr hu
          case gLe => exact fun u => by rw [xGe]
          all_goals (rw [← hx])
        have xVs : x.Ve s = st.g s := by rw [Ve_acc ((xacc s).mpr as), xvs]
        have xV : ∀ u, u ≠ s → x.Ve u = st.Ve u := by
          intro u q; simp only [Ve, xacc, xv u q]
        have gvs := c.gv s as
        have vle : ∀ u, st.acc u → x.v u ≤ st.v u := by
          intro u hu
          by_cases q : u = s
          · subst q; rw [xvs]; exact gvs
          · rw [xv u q]
        have xOpn : ∀ u, x.Opn u ↔ u ≠ s ∧ st.Opn u := by intro u; rw [Opn, xheap]; exact opn1 u
        have dx : Data x := ⟨by rw [xheap]; exact d1.bp, by rw [xheap]; exact d1.ord, by rw [← hx]; exact d1.callLe,
          by intro u hu; rw [xheap]; exact d1.staleH u (fun q => hu ((xacc u).mpr q))⟩
        have cx : Core x s0 := by
          refine ⟨(xacc _).mpr c.startAcc, by rw [xg]; exact c.startG, ?_, ?_, ?_, ?_, by rw [xbest]; exact c.bestLe⟩
          · intro u hu
            rw [xg]
            by_cases q : u = s
            · subst q; rw [xvs]
            · rw [xv u q]; exact c.gv u ((xacc u).mp hu)
          · intro u hu
            have := c.vInf u ((xacc u).mp hu)
            have := vle u ((xacc u).mp hu)
            omega
          · intro u hu lt nu
            rw [xg] at lt ⊢
            obtain ⟨p, k, h1, h2, h3, h4⟩ := c.ptrOk u ((xacc u).mp hu) lt nu
            have := vle p h3
            exact ⟨p, k, by rw [xptr]; exact h1, by rw [xbase]; exact h2, (xacc p).mpr h3, by omega⟩
          · intro u hu; rw [xg]; exact c.opnFin u ((xOpn u).mp hu).2
        have lx : Live st gl 0 [] → Live x gl s (x.nbr s) := by
          intro l
          refine ⟨?_, by rw [xGe, xbest]; exact l.gG, by rw [xV gl (Ne.symm sg)]; exact l.vGoal, ?_, ?_⟩
          · intro u hu; rw [xh, xheur]; exact l.hok u ((xacc u).mp hu)
          · intro u t c' hm
            by_cases q : u = s
            · subst q; left; exact ⟨rfl, (hn.frame fr0 u sg (t, c')).mpr hm⟩
            · rw [xV u q, xGe, xbest, xheur]
              rw [xbase] at hm
              rcases l.edge u t c' hm with z | z
              · simp at z
              · exact .inr z
          · intro u hu lt
            rw [xg, xbest, xheur]
            rw [xg] at lt
            by_cases q : u = s
            · subst q; rw [xvs] at lt; omega
            · rw [xv u q] at lt
              rcases l.pend u ((xacc u).mp hu) lt with z | z
              · exact .inl ((xOpn u).mpr ⟨q, z⟩)
              · exact .inr z
        have nbrIn : ∀ e ∈ x.nbr s, e ∈ x.base s := fun e he => (hn.frame fr0 s sg e).mp he
        have ua := updateAll_spec (x.nbr s) dx cx ((xacc s).mpr as) (by rw [xg, xvs]) nbrIn
        cases e1 : x.updateAll s (x.nbr s) with
        | error z => rw [e1] at ua; exact ua
        | ok y =>
          rw [e1] at ua
          obtain ⟨up, cy, ly⟩ := ua
          simp only
          have fr1 : Frame st y := fr0.trans up.frame
          have agy : y.acc gl := fr1.accM gl ag
          have yGle := up.frame.gLe gl
          generalize hz : ({ y with bestG := y.g gl } : ANA) = z
          have fr2 : Frame y z := by rw [← hz]; exact ⟨rfl, rfl, rfl, rfl, rfl, rfl, rfl, fun _ h => h, fun _ => Nat.le_refl _⟩
          have frz : Frame st z := fr1.trans fr2
          have ginf : y.g gl ≤ INF := by have := cy.gv gl agy; have := cy.vInf gl agy; omega
          have dz : Data z := by rw [← hz]; exact ⟨up.data.bp, up.data.ord, up.data.callLe, up.data.staleH⟩
          have cz : Core z s0 := by
            rw [← hz]; exact ⟨cy.startAcc, cy.startG, cy.gv, cy.vInf, cy.ptrOk, cy.opnFin, ginf⟩
          have lz : Live st gl 0 [] → Live z gl 0 [] := by
            intro l
            have := ly gl (by rw [fr0.goal]; exact hg) (lx l)
            rw [← hz]
            refine (this.weak).lower (Nat.le_of_eq (Ge_acc agy)) ?_
            rw [← Ge_acc agy, up.best, xbest]
            exact Nat.le_trans (fr1.gLe gl) l.gG
          have muz : ∀ U, mu U z = mu U y := by intro U; rw [← hz]; rfl
          have hloop := ih dz cz (hn.frame frz) (frz.accM gl ag) (by rw [frz.goal]; exact hg)
          cases e2 : improveLoop gl b z with
          | error w => rw [e2] at hloop; exact hloop
          | ok r =>
            rw [e2] at hloop
            obtain ⟨r, tr⟩ := r
            have lp : LoopPost z s0 gl b r tr := hloop
            have zg : z.g = y.g := by rw [← hz]
            have zh : z.h = y.h := by rw [← hz]
            have zOpn : ∀ u, z.Opn u ↔ y.Opn u := by intro u; rw [← hz]; exact Iff.rfl
            have hokz : HOk st gl → HOk z gl := by
              intro hk u hu
              have au : y.acc u := by rw [← hz] at hu; exact hu
              rw [zh, frz.heur]
              by_cases q : x.acc u
              · rw [up.hs u q, xh]; exact hk u ((xacc u).mp q)
              · rw [up.hnew gl (by rw [fr0.goal]; exact hg) u q au, xheur]
            refine ⟨frz.trans lp.frame, lp.data, lp.core, ?_, fun l => lp.live (lz l), ?_, ?_, ?_, ?_, fun hk => lp.hok (hokz hk), ?_⟩
            · rw [lp.eps, ← hz]; show y.epsSat = _; rw [up.eps, ← hx]
            · right
              rcases lp.best with ⟨q, _, _⟩ | q
              · rw [q, ← hz]
              · exact q
            · simp only [List.mem_cons, not_or]; exact ⟨Ne.symm sg, lp.noGoal⟩
            · intro pos u hu
              rcases List.mem_cons.mp hu with q | q
              · subst q
                obtain ⟨k, w, _⟩ := reach c pos (st.g u) u (Nat.le_refl _) as sfin
                exact ⟨k, w⟩
              · have := lp.rch (by intro a b c hm; rw [frz.base] at hm; exact pos a b c hm) u q
                rw [frz.base] at this; exact this
            · intro L hk hcons hl
              refine lp.low L (hokz hk) (by intro a b c hm; rw [frz.base] at hm; rw [frz.heur]; exact hcons a b c hm) ?_
              intro o ho
              have hy := (zOpn o).mp ho
              have hho : z.h o = st.heur gl o := by
                rw [hokz hk o (dz.opnAcc ho), frz.heur]
              rw [zg, hho]
              rcases up.opnG o hy with ⟨q1, q2⟩ | ⟨c', q1, q2⟩
              · have so' := ((xOpn o).mp q1).2
                rw [q2, xg, ← hk o (d.opnAcc so')]
                exact hl o so'
              · rw [q2, xg]
                have h1 := hl s so
                rw [hk s as] at h1
                have h2 := hcons s o c' (by rw [← xbase]; exact nbrIn _ q1)
                omega
            · intro pos U nd hU
              have hU' : ∀ u k, Walk z.base s0 u k → u ∈ U := by rw [frz.base]; exact hU
              obtain ⟨k, w, _⟩ := reach c pos (st.g s) s (Nat.le_refl _) as sfin
              have hin : ∀ e ∈ x.nbr s, e.1 ∈ U := by
                intro e he
                refine hU e.1 (k + e.2) (w.snoc ?_)
                rw [← xbase]; exact nbrIn e he
              have h1 := up.mu U nd hin
              have h2 : mu U x + 1 = mu U st := by
                unfold mu; rw [xGe, xheap]; omega
              obtain ⟨f1, f2, f3⟩ := lp.fin (by intro a b c hm; rw [frz.base] at hm; exact pos a b c hm) U nd hU'
              rw [muz] at f1 f2
              refine ⟨?_, ?_, ?_⟩
              · rcases f1 with f1 | f1 | f1
                · exact .inl f1
                · exact .inr (.inl f1)
                · right; right
                  show mu U r + (b + 1) ≤ _
                  omega
              · show mu U r ≤ _
                omega
              · intro _ _
                show mu U r + 1 ≤ _
                omega

end Sbpl.ANA
