import Verif.Model.PlannerTable
import Mathlib.Tactic.SplitIfs

/-!
# The shared table: simulation of the ideal machine
-/

namespace Sbpl.Tab

open TabSpec

theorem put_same {α β : Type} [DecidableEq α] (f : α → β) (a : α) (b : β) : put f a b a = b := by
  simp [put]

theorem put_other {α β : Type} [DecidableEq α] (f : α → β) {a x : α} (b : β) (h : x ≠ a) :
    put f a b x = f x := by simp [put, h]

/-- The table describes the arrays of the planner `q` exactly. -/
def Own (w : World) (q : Pl) : Prop :=
  ∀ id loc i, w.tab id loc = some i ↔ ∃ o, (q.arr loc)[i]? = some o ∧ o.id = id

structure Sim (t : Tracker) (p : Priv) (w : World) : Prop where
  ids_p : p.ids = w.ids
  ids_t : t.ids = w.ids
  nxt : p.next = w.next
  live_p : ∀ h, p.live h = (w.pl h).map Pl.kind
  live_t : ∀ h, t.live h = (w.pl h).map Pl.kind
  lz : ∀ h q, w.pl h = some q → q.kind = .lzy →
    (∀ id, p.has h false id = ((q.own[id]?).join).map Obj.serial) ∧
    (∀ id (o : Obj), q.own[id]? = some (some o) → o.id = id)
  tb : ∀ h q, w.pl h = some q → q.kind ≠ .lzy → ∀ loc, p.count h loc = (q.arr loc).length ∧
    ∀ id s, p.has h loc id = some s ↔ (⟨s, id⟩ : Obj) ∈ q.arr loc
  nol : ∀ h q, w.pl h = some q → q.kind ≠ .rstar → q.arr true = []
  fr : ∀ h q, w.pl h = some q → q.kind ≠ .lzy → t.fresh h = true → ∀ loc, q.arr loc = []
  usr : ∀ h, t.user = some h → ∃ q, w.pl h = some q ∧ q.kind ≠ .lzy ∧ Own w q
  cl : t.clean = true → t.user = none ∧ ∀ id loc, w.tab id loc = none
  bd : ∀ id loc i, w.tab id loc = some i → id < w.ids

theorem sim_init : Sim .init .init .init where
  ids_p := rfl
  ids_t := rfl
  nxt := rfl
  live_p := fun _ => rfl
  live_t := fun _ => rfl
  lz := fun _ _ e => by simp [World.init] at e
  tb := fun _ _ e => by simp [World.init] at e
  nol := fun _ _ e => by simp [World.init] at e
  fr := fun _ _ e => by simp [World.init] at e
  usr := fun _ e => by simp [Tracker.init] at e
  cl := fun _ => ⟨rfl, fun _ _ => rfl⟩
  bd := fun _ _ _ e => by simp [World.init] at e

variable {t : Tracker} {p : Priv} {w : World}

theorem Sim.own (S : Sim t p w) {h : Nat} {q : Pl} (e : w.pl h = some q) (k : q.kind ≠ .lzy)
    (m : t.MayUse h) : Own w q := by
  rcases m with m | ⟨c, f⟩
  · obtain ⟨q', e', _, o⟩ := S.usr h m
    rw [e] at e'; cases e'; exact o
  · intro id loc i
    rw [(S.cl c).2 id loc, S.fr h q e k f loc]
    simp

theorem Sim.used (S : Sim t p w) {h : Nat} {q : Pl} (e : w.pl h = some q) (k : q.kind ≠ .lzy)
    (o : Own w q) : Sim (t.used h) p w where
  ids_p := S.ids_p
  ids_t := S.ids_t
  nxt := S.nxt
  live_p := S.live_p
  live_t := S.live_t
  lz := S.lz
  tb := S.tb
  nol := S.nol
  fr := by
    intro h' q' e' k' f
    by_cases hh : h' = h
    · subst hh; simp [Tracker.used, put] at f
    · refine S.fr h' q' e' k' ?_
      simpa [Tracker.used, put, hh] using f
  usr := by
    intro h' e'
    simp only [Tracker.used, Option.some.injEq] at e'
    subst e'
    exact ⟨q, e, k, o⟩
  cl := by intro c; simp [Tracker.used] at c
  bd := S.bd

/-- Appending a record keeps the correspondence. -/
theorem Sim.created (S : Sim t p w) {h : Nat} {q : Pl} (e : w.pl h = some q) (k : q.kind ≠ .lzy)
    (o : Own w q) (u : t.user = some h) (c : t.clean = false) (f : t.fresh h = false)
    (loc : Bool) (hl : loc = true → q.kind = .rstar) (id : Nat) (hid : id < w.ids)
    (hn : w.tab id loc = none) :
    Sim t (p.alloc h loc id) (w.createState h q loc id) where
  ids_p := S.ids_p
  ids_t := S.ids_t
  nxt := by simp [Priv.alloc, World.createState, S.nxt]
  live_p := by
    intro h'
    by_cases hh : h' = h
    · subst hh; simp [Priv.alloc, World.createState, put, S.live_p, e]
    · simp [Priv.alloc, World.createState, put, hh, S.live_p]
  live_t := by
    intro h'
    by_cases hh : h' = h
    · subst hh; simp [World.createState, put, S.live_t, e]
    · simp [World.createState, put, hh, S.live_t]
  lz := by
    intro h' q' e' k'
    by_cases hh : h' = h
    · subst hh
      simp only [World.createState, put_same, Option.some.injEq] at e'
      subst e'
      exact absurd k' k
    · simp only [World.createState, put_other _ _ hh] at e'
      simpa [Priv.alloc, put_other _ _ hh] using S.lz h' q' e' k'
  tb := by
    intro h' q' e' k' loc'
    by_cases hh : h' = h
    · subst hh
      simp only [World.createState, put_same, Option.some.injEq] at e'
      subst e'
      have B := S.tb h' q e k loc'
      by_cases ll : loc' = loc
      · subst ll
        refine ⟨by simp [Priv.alloc, put_same, B.1], fun id' s => ?_⟩
        simp only [Priv.alloc, put_same, List.mem_append, List.mem_singleton]
        by_cases ii : id' = id
        · subst ii
          simp only [put_same, Option.some.injEq, Obj.mk.injEq, and_true]
          constructor
          · intro x; exact Or.inr (by rw [← x, S.nxt])
          · rintro (x | x)
            · exfalso
              obtain ⟨i, hi⟩ := List.getElem?_of_mem x
              have := (o id' loc' i).2 ⟨_, hi, rfl⟩
              rw [hn] at this; cases this
            · rw [x, S.nxt]
        · rw [put_other _ _ ii, B.2]
          simp [ii]
      · simpa [Priv.alloc, put_same, put_other _ _ ll] using B
    · simp only [World.createState, put_other _ _ hh] at e'
      simpa [Priv.alloc, put_other _ _ hh] using S.tb h' q' e' k' loc'
  nol := by
    intro h' q' e' k'
    by_cases hh : h' = h
    · subst hh
      simp only [World.createState, put_same, Option.some.injEq] at e'
      subst e'
      have ll : true ≠ loc := fun x => k' (hl x.symm)
      simpa [put_other _ _ ll] using S.nol h' q e k'
    · simp only [World.createState, put_other _ _ hh] at e'
      exact S.nol h' q' e' k'
  fr := by
    intro h' q' e' k' f'
    by_cases hh : h' = h
    · subst hh; rw [f] at f'; cases f'
    · simp only [World.createState, put_other _ _ hh] at e'
      exact S.fr h' q' e' k' f'
  usr := by
    intro h' u'
    rw [u] at u'; cases u'
    refine ⟨{ q with arr := put q.arr loc (q.arr loc ++ [⟨w.next, id⟩]) },
      by simp only [World.createState, put_same], k, ?_⟩
    intro id' loc' i
    simp only [World.createState]
    by_cases ll : loc' = loc
    · subst ll
      rw [put_same]
      have hN : ∀ (j : Nat) (o' : Obj), (q.arr loc')[j]? = some o' → o'.id ≠ id := by
        intro j o' a b
        have := (o id loc' j).2 ⟨o', a, b⟩
        rw [hn] at this; cases this
      have hA : ∀ o', (q.arr loc' ++ [(⟨w.next, id⟩ : Obj)])[i]? = some o' ↔
          ((q.arr loc')[i]? = some o' ∨ (i = (q.arr loc').length ∧ o' = ⟨w.next, id⟩)) := by
        intro o'
        rw [List.getElem?_append]
        split_ifs with c
        · constructor
          · exact Or.inl
          · rintro (x | ⟨x, _⟩)
            · exact x
            · omega
        · constructor
          · intro x
            right
            have : i - (q.arr loc').length = 0 := by
              rcases Nat.eq_zero_or_pos (i - (q.arr loc').length) with z | z
              · exact z
              · rw [List.getElem?_eq_none (by simp; omega)] at x; cases x
            rw [this] at x
            simp only [List.getElem?_cons_zero, Option.some.injEq] at x
            exact ⟨by omega, x.symm⟩
          · rintro (x | ⟨x, y⟩)
            · rw [List.getElem?_eq_none (by omega)] at x; cases x
            · subst x y; simp
      by_cases ii : id' = id
      · subst ii
        rw [put_same, put_same]
        constructor
        · intro x
          cases x
          exact ⟨⟨w.next, id'⟩, (hA _).2 (Or.inr ⟨rfl, rfl⟩), rfl⟩
        · rintro ⟨o', a, b⟩
          rcases (hA o').1 a with x | ⟨x, _⟩
          · exact absurd b (hN _ _ x)
          · rw [x]
      · rw [put_other _ _ ii, o id' loc' i]
        constructor
        · rintro ⟨o', a, b⟩
          exact ⟨o', (hA _).2 (Or.inl a), b⟩
        · rintro ⟨o', a, b⟩
          rcases (hA o').1 a with x | ⟨_, x⟩
          · exact ⟨o', x, b⟩
          · subst x; exact absurd b.symm ii
    · rw [put_other _ _ ll]
      by_cases ii : id' = id
      · subst ii
        rw [put_same, put_other _ _ ll]
        exact o id' loc' i
      · rw [put_other _ _ ii]
        exact o id' loc' i
  cl := by intro c'; rw [c] at c'; cases c'
  bd := by
    intro id' loc' i a
    simp only [World.createState] at a ⊢
    by_cases ii : id' = id
    · subst ii; exact hid
    · rw [put_other _ _ ii] at a
      exact S.bd id' loc' i a

/-- Table lookup and the ideal machine's association agree. -/
theorem Sim.lookup (S : Sim t p w) {h : Nat} {q : Pl} (e : w.pl h = some q) (k : q.kind ≠ .lzy)
    (o : Own w q) (loc : Bool) (id : Nat) :
    (w.tab id loc = none ∧ p.has h loc id = none) ∨
    ∃ i s, w.tab id loc = some i ∧ (q.arr loc)[i]? = some ⟨s, id⟩ ∧ p.has h loc id = some s := by
  have B := (S.tb h q e k loc).2 id
  rcases hx : w.tab id loc with _ | i
  · left
    refine ⟨rfl, ?_⟩
    rcases hy : p.has h loc id with _ | s
    · rfl
    · exfalso
      obtain ⟨i, hi⟩ := List.getElem?_of_mem ((B s).1 hy)
      have := (o id loc i).2 ⟨_, hi, rfl⟩
      rw [hx] at this; cases this
  · right
    obtain ⟨⟨s, id'⟩, a, b⟩ := (o id loc i).1 hx
    have b' : id' = id := b
    subst b'
    exact ⟨i, s, rfl, a, (B s).2 (List.mem_of_getElem? a)⟩

theorem getMDP_sim (S : Sim t p w) {h : Nat} {q : Pl} (e : w.pl h = some q) (k : q.kind ≠ .lzy)
    (m : t.MayUse h) (loc : Bool) (hl : loc = true → q.kind = .rstar) {id : Int} (h0 : 0 ≤ id) :
    let r := if (p.ids : Int) ≤ id then (p, Out.invalid) else p.fetch (some maxStates) h loc id.toNat
    Sim (t.used h) r.1 (w.getMDP h q loc id).1 ∧ r.2 = (w.getMDP h q loc id).2 := by
  have o := S.own e k m
  have S' := S.used e k o
  intro r
  simp only [r, World.getMDP, S.ids_p]
  by_cases c : (w.ids : Int) ≤ id
  · simp only [c, if_true]; exact ⟨S', trivial⟩
  · have c2 : ¬ id < 0 := by omega
    simp only [c, if_false, c2]
    rcases S.lookup e k o loc id.toNat with ⟨a, b⟩ | ⟨i, s, a, b, d⟩
    · have B := (S.tb h q e k loc).1
      simp only [a, Priv.fetch, b, Option.any_some, B, decide_eq_true_eq]
      by_cases cc : maxStates ≤ (q.arr loc).length
      · have : maxStates < (q.arr loc).length + 1 := by omega
        simp only [cc, this, if_true]; exact ⟨S', trivial⟩
      · have : ¬ maxStates < (q.arr loc).length + 1 := by omega
        simp only [cc, this, if_false]
        refine ⟨S'.created e k o rfl rfl (by simp [Tracker.used, put]) loc hl _ (by omega) a, ?_⟩
        rw [S.nxt]
    · simp only [a, b, Priv.fetch, d]
      exact ⟨S', trivial⟩

theorem getMHA_sim (S : Sim t p w) {h : Nat} {q : Pl} (e : w.pl h = some q) (k : q.kind ≠ .lzy)
    (m : t.MayUse h) {id : Int} (h0 : 0 ≤ id) (h1 : id < t.ids) :
    let r := p.fetch none h false id.toNat
    Sim (t.used h) r.1 (w.getMHA h q false id).1 ∧ r.2 = (w.getMHA h q false id).2 := by
  have o := S.own e k m
  have S' := S.used e k o
  rw [S.ids_t] at h1
  intro r
  have c : ¬ (id < 0 ∨ (w.ids : Int) ≤ id) := by omega
  simp only [r, World.getMHA, c, if_false]
  rcases S.lookup e k o false id.toNat with ⟨a, b⟩ | ⟨i, s, a, b, d⟩
  · simp only [a, Priv.fetch, b, Option.any_none, Bool.false_eq_true, if_false]
    refine ⟨S'.created e k o rfl rfl (by simp [Tracker.used, put]) false (by simp) _ (by omega) a, ?_⟩
    rw [S.nxt]
  · simp only [a, b, Priv.fetch, d]
    exact ⟨S', trivial⟩

/-! ## Lazy ARA* -/

theorem grow_get (v : List (Option Obj)) (id j : Nat) : ((grow v id)[j]?).join = (v[j]?).join := by
  unfold grow
  rw [List.getElem?_append]
  split_ifs with c
  · rfl
  · rw [List.getElem?_eq_none (by omega : v.length ≤ j), List.getElem?_replicate]
    split_ifs <;> rfl

theorem grow_len (v : List (Option Obj)) (id : Nat) : id < (grow v id).length := by
  simp [grow]; omega

/-- A change of a Lazy ARA* planner's vector only. -/
theorem Sim.lazySet (S : Sim t p w) {h : Nat} {q : Pl} (e : w.pl h = some q) (k : q.kind = .lzy)
    (v : List (Option Obj)) (hv : ∀ id (o : Obj), v[id]? = some (some o) → o.id = id)
    {p' : Priv} (hi : p'.ids = p.ids) (hlv : p'.live = p.live)
    (hh1 : ∀ h', h' ≠ h → p'.has h' = p.has h' ∧ p'.count h' = p.count h')
    (hh2 : ∀ id, p'.has h false id = ((v[id]?).join).map Obj.serial) (n : Nat)
    (hn : p'.next = n) :
    Sim t p' { w with pl := put w.pl h (some { q with own := v }), next := n } where
  ids_p := by simp [hi, S.ids_p]
  ids_t := S.ids_t
  nxt := hn
  live_p := by
    intro h'
    by_cases hh : h' = h
    · subst hh; simp [put, hlv, S.live_p, e]
    · simp [put, hh, hlv, S.live_p]
  live_t := by
    intro h'
    by_cases hh : h' = h
    · subst hh; simp [put, S.live_t, e]
    · simp [put, hh, S.live_t]
  lz := by
    intro h' q' e' k'
    by_cases hh : h' = h
    · subst hh
      simp only [put_same, Option.some.injEq] at e'
      subst e'
      exact ⟨hh2, hv⟩
    · simp only [put_other _ _ hh] at e'
      rw [(hh1 h' hh).1]
      exact S.lz h' q' e' k'
  tb := by
    intro h' q' e' k' loc'
    by_cases hh : h' = h
    · subst hh
      simp only [put_same, Option.some.injEq] at e'
      subst e'
      exact absurd k k'
    · simp only [put_other _ _ hh] at e'
      rw [(hh1 h' hh).1, (hh1 h' hh).2]
      exact S.tb h' q' e' k' loc'
  nol := by
    intro h' q' e' k'
    by_cases hh : h' = h
    · subst hh
      simp only [put_same, Option.some.injEq] at e'
      subst e'
      exact S.nol h' q e k'
    · simp only [put_other _ _ hh] at e'
      exact S.nol h' q' e' k'
  fr := by
    intro h' q' e' k' f
    by_cases hh : h' = h
    · subst hh
      simp only [put_same, Option.some.injEq] at e'
      subst e'
      exact absurd k k'
    · simp only [put_other _ _ hh] at e'
      exact S.fr h' q' e' k' f
  usr := by
    intro h' u
    obtain ⟨q', e', k', o⟩ := S.usr h' u
    have hh : h' ≠ h := by
      rintro rfl; rw [e] at e'; cases e'; exact k' k
    exact ⟨q', by simp only [put_other _ _ hh]; exact e', k', o⟩
  cl := S.cl
  bd := S.bd

theorem getLazy_sim (S : Sim t p w) {h : Nat} {q : Pl} (e : w.pl h = some q) (k : q.kind = .lzy)
    {id : Int} (h0 : 0 ≤ id) :
    let r := p.fetch none h false id.toNat
    Sim t r.1 (w.getLazy h q id).1 ∧ r.2 = (w.getLazy h q id).2 := by
  intro r
  have c : ¬ id < 0 := by omega
  obtain ⟨L1, L2⟩ := S.lz h q e k
  generalize hx : id.toNat = x at r
  have hv : ∀ j (o : Obj), (grow q.own x)[j]? = some (some o) → o.id = j := by
    intro j o a
    apply L2 j o
    have := grow_get q.own x j
    rw [a] at this
    rcases hz : q.own[j]? with _ | _ | z
    · rw [hz] at this; simp at this
    · rw [hz] at this; simp at this
    · rw [hz] at this
      have : some o = some z := this
      cases this; rfl
  have hget := grow_get q.own x x
  obtain ⟨y, hy⟩ : ∃ y, (grow q.own x)[x]? = some y := ⟨_, List.getElem?_eq_getElem (grow_len _ _)⟩
  simp only [r, World.getLazy, c, if_false, hx, hy]
  rw [hy] at hget
  cases y with
  | some o =>
    have hp : p.has h false x = some o.serial := by
      rw [L1 x, ← hget]; rfl
    have ho := hv x o hy
    simp only [Priv.fetch, hp]
    refine ⟨?_, by cases o; simp_all⟩
    exact S.lazySet e k _ hv rfl rfl (fun _ _ => ⟨rfl, rfl⟩)
      (fun j => by rw [grow_get]; exact L1 j) w.next S.nxt
  | none =>
    have hp : p.has h false x = none := by
      rw [L1 x, ← hget]; rfl
    simp only [Priv.fetch, hp, Option.any_none, Bool.false_eq_true, if_false]
    refine ⟨?_, by rw [S.nxt]⟩
    refine S.lazySet (p' := p.alloc h false x) e k _ ?_ rfl rfl ?_ ?_ (w.next + 1) (by simp [Priv.alloc, S.nxt])
    · intro j o a
      rw [List.getElem?_set] at a
      split_ifs at a with c1 c2
      · cases a; exact c1
      · exact hv j o a
    · intro h' hh
      simp [Priv.alloc, put_other _ _ hh]
    · intro j
      simp only [Priv.alloc, put_same]
      rw [List.getElem?_set]
      by_cases jj : j = x
      · subst jj
        simp [put_same, grow_len, S.nxt]
      · rw [put_other _ _ jj, if_neg (fun z => jj z.symm), grow_get, L1 j]

/-! ## unmapping -/

theorem unmap_eq (os : List Obj) (tab : Nat → Bool → Option Nat) (loc : Bool) (id : Nat) (l : Bool) :
    unmap tab loc os id l = if l = loc ∧ ∃ o ∈ os, o.id = id then none else tab id l := by
  induction os generalizing tab with
  | nil => simp [unmap]
  | cons o os ih =>
    rw [unmap, ih]
    by_cases ll : l = loc
    · subst ll
      by_cases ii : id = o.id
      · subst ii
        simp [put_same]
      · have : ¬ o.id = id := fun z => ii z.symm
        simp [put_other _ _ ii, this]
    · by_cases ii : id = o.id
      · subst ii
        simp [put_same, put_other _ _ ll, ll]
      · simp [put_other _ _ ii, ll]

/-- What the ideal machine keeps of the other planners when `h` forgets. -/
theorem forget2_other (p : Priv) (h : Nat) {h' : Nat} (hh : h' ≠ h) :
    ((p.forget h false).forget h true).has h' = p.has h' ∧
    ((p.forget h false).forget h true).count h' = p.count h' := by
  simp [Priv.forget, put_other _ _ hh]

theorem forget2_self (p : Priv) (h : Nat) (loc : Bool) :
    (∀ id, ((p.forget h false).forget h true).has h loc id = none) ∧
    ((p.forget h false).forget h true).count h loc = 0 := by
  cases loc <;> simp [Priv.forget, put]

/-- The planner `h` starts with nothing (`q'`), or is gone; the others are as before. -/
theorem Sim.replaced (S : Sim t p w) (h : Nat) (q' : Option Pl)
    (hq : ∀ q, q' = some q → (q.kind ≠ .lzy → ∀ loc, q.arr loc = []) ∧
      (q.kind = .lzy → q.own = []) ∧ q.arr true = [])
    {t' : Tracker} {p' : Priv} {tab' : Nat → Bool → Option Nat}
    (hi : p'.ids = p.ids) (hn : p'.next = p.next)
    (hl : p'.live = put p.live h (q'.map Pl.kind))
    (hh1 : ∀ h', h' ≠ h → p'.has h' = p.has h' ∧ p'.count h' = p.count h')
    (hh2 : ∀ loc, (∀ id, p'.has h loc id = none) ∧ p'.count h loc = 0)
    (ti : t'.ids = t.ids) (tl : t'.live = put t.live h (q'.map Pl.kind))
    (tf : ∀ h', h' ≠ h → t'.fresh h' = t.fresh h')
    (tu : ∀ h', t'.user = some h' → h' ≠ h ∧ t.user = some h' ∧ tab' = w.tab)
    (tc : t'.clean = true → t'.user = none ∧ ∀ id loc, tab' id loc = none)
    (tb : ∀ id loc i, tab' id loc = some i → id < w.ids) :
    Sim t' p' { w with pl := put w.pl h q', tab := tab' } where
  ids_p := by simp [hi, S.ids_p]
  ids_t := by simp [ti, S.ids_t]
  nxt := by simp [hn, S.nxt]
  live_p := by
    intro h'
    rw [hl]
    by_cases hh : h' = h
    · subst hh; simp [put_same]
    · simp [put_other _ _ hh, S.live_p]
  live_t := by
    intro h'
    rw [tl]
    by_cases hh : h' = h
    · subst hh; simp [put_same]
    · simp [put_other _ _ hh, S.live_t]
  lz := by
    intro h' q e k
    by_cases hh : h' = h
    · subst hh
      simp only [put_same] at e
      refine ⟨fun id => ?_, fun id o a => ?_⟩
      · rw [(hh2 false).1, (hq q e).2.1 k]; simp
      · rw [(hq q e).2.1 k] at a; simp at a
    · simp only [put_other _ _ hh] at e
      rw [(hh1 h' hh).1]
      exact S.lz h' q e k
  tb := by
    intro h' q e k loc
    by_cases hh : h' = h
    · subst hh
      simp only [put_same] at e
      refine ⟨by rw [(hh2 loc).2, (hq q e).1 k]; rfl, fun id s => ?_⟩
      rw [(hh2 loc).1, (hq q e).1 k]; simp
    · simp only [put_other _ _ hh] at e
      rw [(hh1 h' hh).1, (hh1 h' hh).2]
      exact S.tb h' q e k loc
  nol := by
    intro h' q e k
    by_cases hh : h' = h
    · subst hh
      simp only [put_same] at e
      exact (hq q e).2.2
    · simp only [put_other _ _ hh] at e
      exact S.nol h' q e k
  fr := by
    intro h' q e k f
    by_cases hh : h' = h
    · subst hh
      simp only [put_same] at e
      exact (hq q e).1 k
    · simp only [put_other _ _ hh] at e
      rw [tf h' hh] at f
      exact S.fr h' q e k f
  usr := by
    intro h' u
    obtain ⟨hh, u', tt⟩ := tu h' u
    obtain ⟨q, e, k, o⟩ := S.usr h' u'
    refine ⟨q, by simp only [put_other _ _ hh]; exact e, k, ?_⟩
    subst tt
    exact o
  cl := tc
  bd := tb

/-- R*'s local records are deleted. -/
theorem Sim.dropped (S : Sim t p w) {h : Nat} {q : Pl} (e : w.pl h = some q)
    (k : q.kind = .rstar) (m : t.MayUse h) :
    Sim t (p.forget h true) { w with pl := put w.pl h (some { q with arr := put q.arr true [] })
                                     tab := unmap w.tab true (q.arr true) } where
  ids_p := S.ids_p
  ids_t := S.ids_t
  nxt := S.nxt
  live_p := by
    intro h'
    by_cases hh : h' = h
    · subst hh; simp [Priv.forget, put_same, S.live_p, e]
    · simp [Priv.forget, put_other _ _ hh, S.live_p]
  live_t := by
    intro h'
    by_cases hh : h' = h
    · subst hh; simp [put_same, S.live_t, e]
    · simp [put_other _ _ hh, S.live_t]
  lz := by
    intro h' q' e' k'
    by_cases hh : h' = h
    · subst hh
      simp only [put_same, Option.some.injEq] at e'
      subst e'
      rw [k] at k'; cases k'
    · simp only [put_other _ _ hh] at e'
      simpa [Priv.forget, put_other _ _ hh] using S.lz h' q' e' k'
  tb := by
    intro h' q' e' k' loc
    by_cases hh : h' = h
    · subst hh
      simp only [put_same, Option.some.injEq] at e'
      subst e'
      cases loc
      · simpa [Priv.forget, put] using S.tb h' q e k' false
      · simp [Priv.forget, put]
    · simp only [put_other _ _ hh] at e'
      simpa [Priv.forget, put_other _ _ hh] using S.tb h' q' e' k' loc
  nol := by
    intro h' q' e' k'
    by_cases hh : h' = h
    · subst hh
      simp only [put_same, Option.some.injEq] at e'
      subst e'
      simp [put]
    · simp only [put_other _ _ hh] at e'
      exact S.nol h' q' e' k'
  fr := by
    intro h' q' e' k' f loc
    by_cases hh : h' = h
    · subst hh
      simp only [put_same, Option.some.injEq] at e'
      subst e'
      cases loc
      · simpa [put] using S.fr h' q e k' f false
      · simp [put]
    · simp only [put_other _ _ hh] at e'
      exact S.fr h' q' e' k' f loc
  usr := by
    intro h' u
    rcases m with m | ⟨c, _⟩
    · rw [m] at u; cases u
      refine ⟨{ q with arr := put q.arr true [] }, by simp only [put_same], by simp [k], ?_⟩
      have o := S.own e (by simp [k]) (Or.inl m)
      intro id loc i
      simp only [unmap_eq]
      cases loc
      · simpa [put] using o id false i
      · simp only [put_same, true_and, List.getElem?_nil, reduceCtorEq, false_and, exists_false,
          iff_false]
        split_ifs with d
        · simp
        · intro x
          obtain ⟨o', a, b⟩ := (o id true i).1 x
          exact d ⟨o', List.mem_of_getElem? a, b⟩
    · rw [(S.cl c).1] at u; cases u
  cl := by
    intro c
    refine ⟨(S.cl c).1, fun id loc => ?_⟩
    simp only [unmap_eq, (S.cl c).2 id loc, ite_self]
  bd := by
    intro id loc i a
    simp only [unmap_eq] at a
    split_ifs at a
    exact S.bd id loc i a

theorem Sim.newState (S : Sim t p w) :
    Sim { t with ids := t.ids + 1 } { p with ids := p.ids + 1 } w.newState := by
  have ht : put w.tab w.ids (fun _ => none) = w.tab := by
    funext id
    by_cases ii : id = w.ids
    · subst ii
      rw [put_same]
      funext loc
      rcases hx : w.tab w.ids loc with _ | i
      · rfl
      · exact absurd (S.bd _ _ _ hx) (by omega)
    · rw [put_other _ _ ii]
  unfold World.newState
  rw [ht]
  exact ⟨by simp [S.ids_p], by simp [S.ids_t], S.nxt, S.live_p, S.live_t, S.lz, S.tb, S.nol, S.fr,
    S.usr, S.cl, fun id loc i a => Nat.lt_succ_of_lt (S.bd id loc i a)⟩

theorem Sim.wiped (S : Sim t p w) : Sim t.wiped p { w with tab := fun _ _ => none } where
  ids_p := S.ids_p
  ids_t := S.ids_t
  nxt := S.nxt
  live_p := S.live_p
  live_t := S.live_t
  lz := S.lz
  tb := S.tb
  nol := S.nol
  fr := S.fr
  usr := by intro h u; simp [Tracker.wiped] at u
  cl := fun _ => ⟨rfl, fun _ _ => rfl⟩
  bd := by intro id loc i a; simp at a

/-- A planner that made no records, or whose records the table does not describe, is destroyed. -/
theorem Sim.destroyed (S : Sim t p w) (h : Nat) :
    Sim { t with live := put t.live h none, user := if t.user = some h then none else t.user }
      { ((p.forget h false).forget h true) with live := put p.live h none }
      { w with pl := put w.pl h none } := by
  refine S.replaced h none (by simp) (tab' := w.tab) rfl rfl rfl
    (fun h' hh => forget2_other p h hh) (fun loc => forget2_self p h loc) rfl rfl (fun _ _ => rfl)
    ?_ ?_ S.bd
  · intro h' u
    simp only at u
    split_ifs at u with c
    exact ⟨fun z => c (z ▸ u), u, rfl⟩
  · intro c
    refine ⟨?_, (S.cl c).2⟩
    simp only [(S.cl c).1]
    split_ifs <;> rfl

/-- One event: the planners see what the ideal machine shows them. -/
theorem step_sim (S : Sim t p w) (op : Op) (L : t.Allows op) :
    Sim (t.step op) (p.step maxStates op).1 (w.step op).1 ∧
    (p.step maxStates op).2 = (w.step op).2 := by
  cases op with
  | newState => exact ⟨S.newState, rfl⟩
  | resetMap => exact ⟨S.wiped, rfl⟩
  | create h k =>
    refine ⟨?_, rfl⟩
    simp only [Tracker.Allows] at L
    have hw : w.pl h = none := by
      have := S.live_t h
      rw [L] at this
      rcases hx : w.pl h with _ | q
      · rfl
      · rw [hx] at this; cases this
    refine S.replaced h (some ⟨k, fun _ => [], []⟩) ?_ (tab' := w.tab) rfl rfl rfl
      (fun h' hh => forget2_other p h hh) (fun loc => forget2_self p h loc) rfl rfl ?_ ?_ S.cl S.bd
    · intro q hq; cases hq; exact ⟨fun _ _ => rfl, fun _ => rfl, rfl⟩
    · intro h' hh; simp [Tracker.step, put_other _ _ hh]
    · intro h' u
      refine ⟨?_, u, rfl⟩
      rintro rfl
      obtain ⟨q, e, _⟩ := S.usr h' u
      rw [hw] at e; cases e
  | peek h id =>
    obtain ⟨h0, h1, hk, m⟩ := L
    rw [S.live_t] at hk
    obtain ⟨q, e, kq⟩ := Option.map_eq_some_iff.1 hk
    have k : q.kind ≠ .lzy := by rw [kq]; decide
    have o := S.own e k m
    rw [S.ids_t] at h1
    have c : ¬ (id < 0 ∨ (w.ids : Int) ≤ id) := by omega
    simp only [Priv.step, World.step, World.peek, e, c, if_false, Tracker.step]
    refine ⟨S, ?_⟩
    rcases S.lookup e k o false id.toNat with ⟨a, b⟩ | ⟨i, s, a, b, d⟩
    · rw [a, b] <;> rfl
    · rw [a, d] <;> rfl
  | dropLocal h =>
    obtain ⟨hk, m⟩ := L
    rw [S.live_t] at hk
    obtain ⟨q, e, kq⟩ := Option.map_eq_some_iff.1 hk
    simp only [Priv.step, World.step, World.dropLocal, e, Tracker.step]
    exact ⟨S.dropped e kq m, trivial⟩
  | get h loc id =>
    obtain ⟨h0, L⟩ := L
    rcases hw : w.pl h with _ | q
    · have : t.live h = none := by rw [S.live_t, hw]; rfl
      rw [this] at L; exact L.elim
    · have hlt : t.live h = some q.kind := by rw [S.live_t, hw]; rfl
      have hlp : p.live h = some q.kind := by rw [S.live_p, hw]; rfl
      rw [hlt] at L
      simp only [Tracker.step, Priv.step, World.step, World.get, hw, hlt, hlp, Option.some.injEq]
      rcases hk : q.kind <;> simp only [hk] at L ⊢ <;>
        simp only [reduceCtorEq, if_false, if_true]
      case lzy => subst L; exact getLazy_sim S hw hk h0
      case mha =>
        obtain ⟨l, h1, m⟩ := L
        subst l
        exact getMHA_sim S hw (by rw [hk]; decide) m h0 h1
      case rstar => exact getMDP_sim S hw (by rw [hk]; decide) L loc (fun _ => hk) h0
      all_goals
        obtain ⟨l, m⟩ := L
        subst l
        exact getMDP_sim S hw (by rw [hk]; decide) m false (by simp) h0
  | freeAll h =>
    rcases hw : w.pl h with _ | q
    · have : t.live h = none := by rw [S.live_t, hw]; rfl
      exact absurd this L
    · have hlt : t.live h = some q.kind := by rw [S.live_t, hw]; rfl
      have hlp : p.live h = some q.kind := by rw [S.live_p, hw]; rfl
      simp only [Tracker.step, Priv.step, World.step, World.freeAll, hw, hlt, hlp]
      have put_p : ∀ k, q.kind = k → p.live = put p.live h (some k) := by
        intro k hk; funext h'
        by_cases hh : h' = h
        · subst hh; rw [put_same, hlp, hk]
        · rw [put_other _ _ hh]
      have put_t : ∀ k, q.kind = k → t.live = put t.live h (some k) := by
        intro k hk; funext h'
        by_cases hh : h' = h
        · subst hh; rw [put_same, hlt, hk]
        · rw [put_other _ _ hh]
      have key : q.kind ≠ .lzy →
          Sim { t.wiped with fresh := put t.fresh h true } ((p.forget h false).forget h true)
            { w with pl := put w.pl h (some { q with arr := fun _ => [] })
                     tab := fun _ _ => none } := by
        intro hnl
        refine S.replaced h (some { q with arr := fun _ => [] }) ?_ rfl rfl (put_p _ rfl)
          (fun h' hh => forget2_other p h hh) (fun loc => forget2_self p h loc) rfl (put_t _ rfl)
          ?_ ?_ ?_ ?_
        · intro q' hq; cases hq; exact ⟨fun _ _ => rfl, fun z => absurd z hnl, rfl⟩
        · intro h' hh; simp [put_other _ _ hh]
        · intro h' u; simp [Tracker.wiped] at u
        · intro _; exact ⟨rfl, fun _ _ => rfl⟩
        · intro id loc i a; simp at a
      rcases hk : q.kind <;> simp only [] <;> refine ⟨?_, trivial⟩
      all_goals first | exact S | skip
      case ara => have := key (by rw [hk]; decide); rw [hk] at this; exact this
      case ad => have := key (by rw [hk]; decide); rw [hk] at this; exact this
      case lzy =>
        have hrep := S.replaced h (some { q with own := [] }) (t' := t) (tab' := w.tab)
          (p' := (p.forget h false).forget h true) ?_ rfl rfl (put_p _ rfl)
          (fun h' hh => forget2_other p h hh) (fun loc => forget2_self p h loc) rfl (put_t _ rfl)
          (fun _ _ => rfl) ?_ S.cl S.bd
        · rw [hk] at hrep; exact hrep
        · intro q' hq
          cases hq
          exact ⟨fun z => absurd hk z, fun _ => rfl, S.nol h q hw (by rw [hk]; decide)⟩
        · intro h' u
          refine ⟨?_, u, rfl⟩
          rintro rfl
          obtain ⟨q', e, k', _⟩ := S.usr h' u
          rw [hw] at e; cases e; exact k' hk
  | destroy h =>
    rcases hw : w.pl h with _ | q
    · have : t.live h = none := by rw [S.live_t, hw]; rfl
      simp only [Tracker.Allows, this] at L
    · have hlt : t.live h = some q.kind := by rw [S.live_t, hw]; rfl
      simp only [Tracker.Allows, hlt] at L
      have D := S.destroyed h
      simp only [Tracker.step, Priv.step, World.step, World.destroy, hw, hlt]
      rcases hk : q.kind <;> simp only [hk] at L ⊢ <;> refine ⟨?_, trivial⟩
      case lzy =>
        have hu : t.user ≠ some h := by
          intro u
          obtain ⟨q', e, k', _⟩ := S.usr h u
          rw [hw] at e; cases e; exact k' hk
        simp only [hu, if_false] at D
        exact D
      case mha =>
        by_cases hu : t.user = some h
        · simp only [hu, if_true]
          have o := S.own hw (by rw [hk]; decide) (Or.inl hu)
          have hz : ∀ id loc, unmap w.tab false (q.arr false) id loc = none := by
            intro id loc
            rw [unmap_eq]
            split_ifs with c
            · rfl
            · rcases hx : w.tab id loc with _ | i
              · rfl
              · exfalso
                obtain ⟨o', a, b⟩ := (o id loc i).1 hx
                cases loc
                · exact c ⟨rfl, o', List.mem_of_getElem? a, b⟩
                · rw [S.nol h q hw (by rw [hk]; decide)] at a
                  simp at a
          refine S.replaced h none (by simp) rfl rfl rfl
            (fun h' hh => forget2_other p h hh) (fun loc => forget2_self p h loc) rfl rfl
            (fun _ _ => rfl) ?_ ?_ ?_
          · intro h' u; simp [Tracker.wiped] at u
          · intro _; exact ⟨rfl, hz⟩
          · intro id loc i a; rw [hz] at a; cases a
        · simp only [hu, if_false]
          refine S.replaced h none (by simp) rfl rfl rfl
            (fun h' hh => forget2_other p h hh) (fun loc => forget2_self p h loc) rfl rfl
            (fun _ _ => rfl) ?_ ?_ ?_
          · intro h' u
            have u' : t.user = some h' := u
            refine ⟨fun z => hu (z ▸ u'), u', ?_⟩
            rcases L with L | L | L
            · exact absurd L hu
            · rw [L] at u'; cases u'
            · rw [S.fr h q hw (by rw [hk]; decide) L false]; rfl
          · intro c
            have c' : t.clean = true := c
            refine ⟨(S.cl c').1, fun id loc => ?_⟩
            rw [unmap_eq, (S.cl c').2, ite_self]
          · intro id loc i a
            rw [unmap_eq] at a
            split_ifs at a
            exact S.bd id loc i a
      all_goals
        by_cases hu : t.user = some h
        · simp only [hu, if_true] at D ⊢
          exact D
        · simp only [hu, if_false] at D ⊢
          exact D

/-- Whole histories. -/
theorem run_sim (ops : List Op) : ∀ {t : Tracker} {p : Priv} {w : World}, Sim t p w →
    Legal t ops → w.run ops = p.run maxStates ops := by
  induction ops with
  | nil => intros; rfl
  | cons op ops ih =>
    intro t p w S L
    obtain ⟨S', e⟩ := step_sim S op L.1
    rw [World.run, Priv.run, e, ih S' L.2]

end Sbpl.Tab
