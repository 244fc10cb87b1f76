import Verif.Proofs.PlannerTable

/-!
# Planners that share one environment (C175, C176)
-/

namespace Sbpl.TabProps

open TabSpec Tab

/-- **C175**: in every allowed history the planners get exactly what they would get if each had
its own private records. -/
theorem shared_as_private (ops : List Op) (L : Legal .init ops) :
    World.init.run ops = Priv.init.run maxStates ops :=
  run_sim ops sim_init L

/-! ## Consequences, stated for the planners themselves -/

/-- The state of the ideal machine after a history. -/
def after (p : Priv) : List Op → Priv
  | [] => p
  | op :: ops => after (p.step maxStates op).1 ops

/-- Bookkeeping after a history. -/
def track (t : Tracker) : List Op → Tracker
  | [] => t
  | op :: ops => track (t.step op) ops

/-- The planners after a history. -/
def world (w : World) : List Op → World
  | [] => w
  | op :: ops => world (w.step op).1 ops

theorem sim_after (ops : List Op) : ∀ {t : Tracker} {p : Priv} {w : World}, Sim t p w →
    Legal t ops → Sim (track t ops) (after p ops) (world w ops) := by
  induction ops with
  | nil => intro t p w S _; exact S
  | cons op ops ih =>
    intro t p w S L
    exact ih (step_sim S op L.1).1 L.2

theorem legal_append {ops₁ ops₂ : List Op} : ∀ {t : Tracker}, Legal t (ops₁ ++ ops₂) →
    Legal t ops₁ ∧ Legal (track t ops₁) ops₂ := by
  induction ops₁ with
  | nil => intro t L; exact ⟨trivial, L⟩
  | cons op ops ih =>
    intro t L
    obtain ⟨a, b⟩ := L
    obtain ⟨c, d⟩ := ih b
    exact ⟨⟨a, c⟩, d⟩

theorem run_world (ops₁ ops₂ : List Op) : ∀ w : World,
    w.run (ops₁ ++ ops₂) = w.run ops₁ ++ (world w ops₁).run ops₂ := by
  induction ops₁ with
  | nil => intro w; rfl
  | cons op ops ih => intro w; simp [World.run, world, ih]

theorem run_len (ops : List Op) : ∀ w : World, (w.run ops).length = ops.length := by
  induction ops with
  | nil => intro w; rfl
  | cons op ops ih => intro w; simp [World.run, ih]

/-- What the event at position `pre.length` shows. -/
theorem run_at (pre : List Op) (op : Op) (post : List Op) (w : World) :
    (w.run (pre ++ op :: post))[pre.length]? = some ((world w pre).step op).2 := by
  rw [run_world, List.getElem?_append_right (Nat.le_of_eq (run_len _ _)), run_len]
  simp [World.run]

/-- The number of states the environment has created. -/
def statesMade : List Op → Nat
  | [] => 0
  | .newState :: ops => statesMade ops + 1
  | _ :: ops => statesMade ops

theorem step_ids (t : Tracker) (op : Op) (hn : op ≠ .newState) : (t.step op).ids = t.ids := by
  cases op with
  | newState => exact absurd rfl hn
  | destroy h =>
    simp only [Tracker.step]
    split
    · rfl
    · split_ifs <;> rfl
    · split_ifs <;> rfl
  | get h loc id => simp only [Tracker.step]; split_ifs <;> rfl
  | freeAll h => simp only [Tracker.step]; split <;> rfl
  | _ => rfl

theorem track_ids (ops : List Op) : ∀ t : Tracker,
    (track t ops).ids = t.ids + statesMade ops := by
  induction ops with
  | nil => intro t; rfl
  | cons op ops ih =>
    intro t
    rw [track, ih]
    cases op with
    | newState => simp only [Tracker.step, statesMade]; omega
    | _ => rw [step_ids _ _ (by simp)]; rfl

/-- **C175** (outcomes): in an allowed history a planner that asks for its record of state `id`
either gets a record of that very state; or the exception "invalid", which happens only for an ID
that the environment has not given to a state yet; or the exception "too many states", which
happens only when the table is full.  It never reads outside an array and never receives the record
of another state. -/
theorem get_outcome (pre post : List Op) (h : Nat) (loc : Bool) (id : Int)
    (L : Legal .init (pre ++ .get h loc id :: post)) :
    (∃ o : Obj, (World.init.run (pre ++ .get h loc id :: post))[pre.length]? = some (.record o) ∧
      (o.id : Int) = id) ∨
    ((World.init.run (pre ++ .get h loc id :: post))[pre.length]? = some .invalid ∧
      (statesMade pre : Int) ≤ id) ∨
    (World.init.run (pre ++ .get h loc id :: post))[pre.length]? = some .tooMany := by
  obtain ⟨L1, L2⟩ := legal_append L
  have S := sim_after pre sim_init L1
  obtain ⟨A, _⟩ := L2
  obtain ⟨_, e⟩ := step_sim S _ A
  have hids : (statesMade pre) = (after .init pre).ids := by
    rw [S.ids_p, ← S.ids_t, track_ids]; simp [Tracker.init]
  have F : ∀ cap, (∃ o : Obj, ((after .init pre).fetch cap h loc id.toNat).2 = .record o ∧
      (o.id : Int) = id) ∨ ((after .init pre).fetch cap h loc id.toNat).2 = .tooMany := by
    intro cap
    have h0 : (id.toNat : Int) = id := Int.toNat_of_nonneg A.1
    unfold Priv.fetch
    split
    · exact Or.inl ⟨_, rfl, h0⟩
    · split_ifs
      · exact Or.inr rfl
      · exact Or.inl ⟨_, rfl, h0⟩
  rw [run_at, ← e]
  simp only [Option.some.injEq]
  simp only [Priv.step]
  have hl := S.live_t h
  rw [← S.live_p] at hl
  rcases hk : (after Priv.init pre).live h with _ | k
  · exfalso
    rw [hk] at hl
    have := A.2
    rw [hl] at this
    exact this
  · have G : ∀ r : Priv × Out,
        r = (if ((after .init pre).ids : Int) ≤ id then (after .init pre, Out.invalid)
          else (after .init pre).fetch (some maxStates) h loc id.toNat) →
        (∃ o : Obj, r.2 = .record o ∧ (o.id : Int) = id) ∨
        (r.2 = .invalid ∧ (statesMade pre : Int) ≤ id) ∨ r.2 = .tooMany := by
      rintro r rfl
      split_ifs with c
      · exact Or.inr (Or.inl ⟨rfl, by rw [hids]; exact c⟩)
      · rcases F (some maxStates) with x | x
        · exact Or.inl x
        · exact Or.inr (Or.inr x)
    have G' : (∃ o : Obj, ((after .init pre).fetch none h loc id.toNat).2 = .record o ∧
          (o.id : Int) = id) ∨
        (((after .init pre).fetch none h loc id.toNat).2 = .invalid ∧ (statesMade pre : Int) ≤ id) ∨
        ((after .init pre).fetch none h loc id.toNat).2 = .tooMany := by
      rcases F none with x | x
      · exact Or.inl x
      · exact Or.inr (Or.inr x)
    cases k <;> first | exact G _ rfl | exact G'

/-- **C175** (no undefined behaviour): in an allowed history nothing reads outside an array, uses a
deleted planner or fails an assertion. -/
theorem never_ub (ops : List Op) (L : Legal .init ops) (out : Out)
    (m : out ∈ World.init.run ops) : out ≠ .ub ∧ out ≠ .abort := by
  obtain ⟨i, hi⟩ := List.getElem?_of_mem m
  have hlt : i < ops.length := by
    rw [← run_len ops World.init]
    exact (List.getElem?_eq_some_iff.1 hi).1
  obtain ⟨pre, op, post, e, hp⟩ : ∃ pre op post, ops = pre ++ op :: post ∧ pre.length = i := by
    refine ⟨ops.take i, ops[i], ops.drop (i + 1), ?_, by simp; omega⟩
    rw [List.getElem_cons_drop, List.take_append_drop]
  subst e
  subst hp
  cases op with
  | get h loc id =>
    rcases get_outcome pre post h loc id L with ⟨o, x, _⟩ | ⟨x, _⟩ | x <;>
      (rw [hi] at x; cases x; exact ⟨by simp, by simp⟩)
  | _ =>
    obtain ⟨L1, L2⟩ := legal_append L
    have S := sim_after pre sim_init L1
    obtain ⟨A, _⟩ := L2
    obtain ⟨_, e⟩ := step_sim S _ A
    rw [run_at, ← e] at hi
    simp only [Priv.step, Option.some.injEq] at hi
    first
      | (split at hi <;> (subst hi; exact ⟨by simp, by simp⟩))
      | (subst hi; exact ⟨by simp, by simp⟩)

/-! ### Identity of the records -/

/-- The events that delete the (local) records of planner `h`. -/
def Deletes (h : Nat) (loc : Bool) : Op → Prop
  | .destroy h' => h' = h
  | .create h' _ => h' = h
  | .freeAll h' => h' = h
  | .dropLocal h' => h' = h ∧ loc = true
  | _ => False

theorem has_forget (p : Priv) (h : Nat) (loc : Bool) (h' : Nat) (loc' : Bool) (id : Nat) :
    (p.forget h loc).has h' loc' id = if h' = h ∧ loc' = loc then none else p.has h' loc' id := by
  by_cases hh : h' = h
  · subst hh
    by_cases ll : loc' = loc
    · subst ll; simp [Priv.forget, put]
    · simp [Priv.forget, put, ll]
  · simp [Priv.forget, put, hh]

theorem has_alloc (p : Priv) (h : Nat) (loc : Bool) (id : Nat) (h' : Nat) (loc' : Bool) (id' : Nat) :
    (p.alloc h loc id).has h' loc' id' =
      if h' = h ∧ loc' = loc ∧ id' = id then some p.next else p.has h' loc' id' := by
  by_cases hh : h' = h
  · subst hh
    by_cases ll : loc' = loc
    · subst ll
      by_cases ii : id' = id
      · subst ii; simp [Priv.alloc, put]
      · simp [Priv.alloc, put, ii]
    · simp [Priv.alloc, put, ll]
  · simp [Priv.alloc, put, hh]

/-- How one event can change the records: forget some, or make one new record. -/
theorem step_has (p : Priv) (op : Op) :
    ((p.step maxStates op).1.next = p.next ∧
      ∀ h loc id, (p.step maxStates op).1.has h loc id = p.has h loc id ∨
        ((p.step maxStates op).1.has h loc id = none ∧ Deletes h loc op)) ∨
    (∃ h loc id, (p.step maxStates op).1 = p.alloc h loc id ∧ p.has h loc id = none) := by
  have F : ∀ cap h loc id, (p.fetch cap h loc id).1 = p ∨
      ((p.fetch cap h loc id).1 = p.alloc h loc id ∧ p.has h loc id = none) := by
    intro cap h loc id
    unfold Priv.fetch
    split
    · exact Or.inl rfl
    · rename_i e
      split_ifs
      · exact Or.inl rfl
      · exact Or.inr ⟨rfl, e⟩
  have F2 : ∀ h h' loc id, ((p.forget h false).forget h true).has h' loc id =
      if h' = h then none else p.has h' loc id := by
    intro h h' loc id
    rw [has_forget, has_forget]
    cases loc <;> by_cases hh : h' = h <;> simp [hh]
  cases op with
  | newState => exact Or.inl ⟨rfl, fun _ _ _ => Or.inl rfl⟩
  | resetMap => exact Or.inl ⟨rfl, fun _ _ _ => Or.inl rfl⟩
  | peek h id => exact Or.inl ⟨rfl, fun _ _ _ => Or.inl rfl⟩
  | create h k =>
    refine Or.inl ⟨rfl, fun h' loc id => ?_⟩
    have := F2 h h' loc id
    by_cases hh : h' = h
    · rw [if_pos hh] at this; exact Or.inr ⟨this, hh.symm⟩
    · rw [if_neg hh] at this; exact Or.inl this
  | destroy h =>
    refine Or.inl ⟨rfl, fun h' loc id => ?_⟩
    have := F2 h h' loc id
    by_cases hh : h' = h
    · rw [if_pos hh] at this; exact Or.inr ⟨this, hh.symm⟩
    · rw [if_neg hh] at this; exact Or.inl this
  | dropLocal h =>
    refine Or.inl ⟨rfl, fun h' loc id => ?_⟩
    have := has_forget p h true h' loc id
    simp only [Priv.step]
    by_cases hh : h' = h ∧ loc = true
    · rw [if_pos hh] at this; exact Or.inr ⟨this, hh.1.symm, hh.2⟩
    · rw [if_neg hh] at this; exact Or.inl this
  | freeAll h =>
    left
    have K : ∀ r : Priv × Out, (r = ((p.forget h false).forget h true, .nothing) ∨ r = (p, .nothing)) →
        r.1.next = p.next ∧ ∀ h' loc id, r.1.has h' loc id = p.has h' loc id ∨
          (r.1.has h' loc id = none ∧ h = h') := by
      rintro r (rfl | rfl)
      · refine ⟨rfl, fun h' loc id => ?_⟩
        have := F2 h h' loc id
        by_cases hh : h' = h
        · rw [if_pos hh] at this; exact Or.inr ⟨this, hh.symm⟩
        · rw [if_neg hh] at this; exact Or.inl this
      · exact ⟨rfl, fun _ _ _ => Or.inl rfl⟩
    apply K
    simp only [Priv.step]
    split <;> first | exact Or.inl rfl | exact Or.inr rfl
  | get h loc id =>
    have K : ∀ r : Priv × Out, (r.1 = p ∨ (r.1 = p.alloc h loc id.toNat ∧ p.has h loc id.toNat = none)) →
        (r.1.next = p.next ∧ ∀ h' loc' id', r.1.has h' loc' id' = p.has h' loc' id' ∨
          (r.1.has h' loc' id' = none ∧ Deletes h' loc' (.get h loc id))) ∨
        (∃ h' loc' id', r.1 = p.alloc h' loc' id' ∧ p.has h' loc' id' = none) := by
      rintro r (e | e)
      · rw [e]; exact Or.inl ⟨rfl, fun _ _ _ => Or.inl rfl⟩
      · exact Or.inr ⟨_, _, _, e⟩
    apply K
    simp only [Priv.step]
    split
    · exact Or.inl rfl
    · exact F _ _ _ _
    · exact F _ _ _ _
    · split_ifs
      · exact Or.inl rfl
      · exact F _ _ _ _

/-- The record `s` belongs to `(h, loc, id)` and to nothing else, now and later. -/
def Belongs (s h : Nat) (loc : Bool) (id : Nat) (p : Priv) : Prop :=
  s < p.next ∧ ∀ h' loc' id', p.has h' loc' id' = some s → h' = h ∧ loc' = loc ∧ id' = id

theorem belongs_step {s h : Nat} {loc : Bool} {id : Nat} {p : Priv} (B : Belongs s h loc id p)
    (op : Op) : Belongs s h loc id (p.step maxStates op).1 := by
  rcases step_has p op with ⟨n, K⟩ | ⟨h1, l1, i1, e, _⟩
  · refine ⟨by rw [n]; exact B.1, fun h' loc' id' x => ?_⟩
    rcases K h' loc' id' with k | ⟨k, _⟩
    · rw [k] at x; exact B.2 _ _ _ x
    · rw [k] at x; cases x
  · rw [e]
    refine ⟨Nat.lt_succ_of_lt B.1, fun h' loc' id' x => ?_⟩
    rw [has_alloc] at x
    split_ifs at x with c
    · exact absurd (Option.some.inj x) (Nat.ne_of_gt B.1)
    · exact B.2 _ _ _ x

theorem belongs_after {s h : Nat} {loc : Bool} {id : Nat} (ops : List Op) : ∀ {p : Priv},
    Belongs s h loc id p → Belongs s h loc id (after p ops) := by
  induction ops with
  | nil => intro p B; exact B
  | cons op ops ih => intro p B; exact ih (belongs_step B op)

/-- The ideal machine never confuses records. -/
def Sound (p : Priv) : Prop :=
  ∀ h loc id s, p.has h loc id = some s → Belongs s h loc id p

theorem sound_step {p : Priv} (B : Sound p) (op : Op) : Sound (p.step maxStates op).1 := by
  rcases step_has p op with ⟨n, K⟩ | ⟨h1, l1, i1, e, _⟩
  · intro h loc id s x
    rcases K h loc id with k | ⟨k, _⟩
    · rw [k] at x; exact belongs_step (B h loc id s x) op
    · rw [k] at x; cases x
  · intro h loc id s x
    by_cases c : p.has h loc id = some s
    · exact belongs_step (B h loc id s c) op
    · rw [e] at x ⊢
      rw [has_alloc] at x
      split_ifs at x with d
      · obtain ⟨rfl, rfl, rfl⟩ := d
        cases x
        refine ⟨Nat.lt_succ_self _, fun h' loc' id' y => ?_⟩
        rw [has_alloc] at y
        split_ifs at y with d'
        · exact d'
        · exact absurd (B _ _ _ _ y).1 (Nat.lt_irrefl _)
      · exact absurd x c

theorem sound_after (ops : List Op) : ∀ {p : Priv}, Sound p → Sound (after p ops) := by
  induction ops with
  | nil => intro p B; exact B
  | cons op ops ih => intro p B; exact ih (sound_step B op)

theorem sound_init : Sound Priv.init := by
  intro h loc id s x; simp [Priv.init] at x

/-- After a request that returned a record, the planner has that record. -/
theorem get_has (p : Priv) (h : Nat) (loc : Bool) (id : Int) (o : Obj)
    (e : (p.step maxStates (.get h loc id)).2 = .record o) :
    (p.step maxStates (.get h loc id)).1.has h loc id.toNat = some o.serial ∧ o.id = id.toNat ∧
    (∀ s, p.has h loc id.toNat = some s → o.serial = s) := by
  have F : ∀ cap, (p.fetch cap h loc id.toNat).2 = .record o →
      (p.fetch cap h loc id.toNat).1.has h loc id.toNat = some o.serial ∧ o.id = id.toNat ∧
      (∀ s, p.has h loc id.toNat = some s → o.serial = s) := by
    intro cap
    unfold Priv.fetch
    split
    · rename_i s hs
      intro x; cases x
      exact ⟨hs, rfl, fun s' y => by rw [hs] at y; exact Option.some.inj y⟩
    · rename_i hs
      split_ifs
      · intro x; cases x
      · intro x; cases x
        refine ⟨by rw [has_alloc, if_pos ⟨rfl, rfl, rfl⟩], rfl, fun s y => ?_⟩
        rw [hs] at y; cases y
  revert e
  simp only [Priv.step]
  split
  · intro x; cases x
  · exact F _
  · exact F _
  · split_ifs
    · intro x; cases x
    · exact F _

theorem has_persists {h : Nat} {loc : Bool} {id s : Nat} (ops : List Op) : ∀ {p : Priv},
    p.has h loc id = some s → (∀ op ∈ ops, ¬ Deletes h loc op) →
    (after p ops).has h loc id = some s := by
  induction ops with
  | nil => intro p x _; exact x
  | cons op ops ih =>
    intro p x D
    refine ih ?_ (fun o m => D o (List.mem_cons_of_mem _ m))
    rcases step_has p op with ⟨_, K⟩ | ⟨h1, l1, i1, e, n⟩
    · rcases K h loc id with k | ⟨_, k⟩
      · rw [k]; exact x
      · exact absurd k (D op List.mem_cons_self)
    · rw [e, has_alloc]
      split_ifs with c
      · obtain ⟨rfl, rfl, rfl⟩ := c
        rw [n] at x; cases x
      · exact x

theorem after_append (ops₁ ops₂ : List Op) : ∀ p : Priv,
    after p (ops₁ ++ ops₂) = after (after p ops₁) ops₂ := by
  induction ops₁ with
  | nil => intro p; rfl
  | cons op ops ih => intro p; simp [after, ih]

/-- What the ideal machine shows at a position of an allowed history. -/
theorem run_at_priv (pre : List Op) (op : Op) (post : List Op)
    (L : Legal .init (pre ++ op :: post)) (x : Out)
    (e : (World.init.run (pre ++ op :: post))[pre.length]? = some x) :
    ((after .init pre).step maxStates op).2 = x := by
  obtain ⟨L1, L2⟩ := legal_append L
  have S := sim_after pre sim_init L1
  obtain ⟨_, e'⟩ := step_sim S _ L2.1
  rw [run_at, ← e'] at e
  exact Option.some.inj e

/-- **C175** (stability): a planner that asks twice for its record of the same state gets the same
object both times, unless its records were deleted in between; whatever the environment and the
other planners did in the meantime. -/
theorem same_record (pre mid post : List Op) (h : Nat) (loc : Bool) (id : Int)
    (L : Legal .init (pre ++ .get h loc id :: (mid ++ .get h loc id :: post)))
    (D : ∀ op ∈ mid, ¬ Deletes h loc op) (o o' : Obj)
    (e : (World.init.run (pre ++ .get h loc id :: (mid ++ .get h loc id :: post)))[pre.length]?
      = some (.record o))
    (e' : (World.init.run (pre ++ .get h loc id :: (mid ++ .get h loc id :: post)))[pre.length + 1 +
      mid.length]? = some (.record o')) : o = o' := by
  have E := run_at_priv pre _ _ L _ e
  have hs : pre ++ .get h loc id :: (mid ++ .get h loc id :: post) =
      (pre ++ .get h loc id :: mid) ++ .get h loc id :: post := by simp
  have hn : pre.length + 1 + mid.length = (pre ++ Op.get h loc id :: mid).length := by
    simp; omega
  rw [hs] at L e'
  rw [hn] at e'
  have E' := run_at_priv _ _ _ L _ e'
  obtain ⟨a, b, _⟩ := get_has _ _ _ _ _ E
  obtain ⟨_, b', c'⟩ := get_has _ _ _ _ _ E'
  have P : (after Priv.init (pre ++ .get h loc id :: mid)).has h loc id.toNat = some o.serial := by
    rw [after_append]
    exact has_persists mid a D
  have hser := c' _ P
  obtain ⟨a1, a2⟩ := o
  obtain ⟨b1, b2⟩ := o'
  have h1 : b1 = a1 := hser
  have h2 : a2 = b2 := by
    have x : a2 = id.toNat := b
    have y : b2 = id.toNat := b'
    rw [x, y]
  rw [h1, h2]

/-- **C175** (separation): two requests that differ in the planner, the state or the kind of search
(local or not) never get the same object, at any two moments of the history. -/
theorem different_record (pre mid post : List Op) (h h' : Nat) (loc loc' : Bool) (id id' : Int)
    (L : Legal .init (pre ++ .get h loc id :: (mid ++ .get h' loc' id' :: post)))
    (o o' : Obj)
    (e : (World.init.run (pre ++ .get h loc id :: (mid ++ .get h' loc' id' :: post)))[pre.length]?
      = some (.record o))
    (e' : (World.init.run (pre ++ .get h loc id :: (mid ++ .get h' loc' id' :: post)))[pre.length + 1 +
      mid.length]? = some (.record o'))
    (s : o.serial = o'.serial) : h = h' ∧ loc = loc' ∧ id = id' := by
  have E := run_at_priv pre _ _ L _ e
  have h0 : 0 ≤ id := (legal_append L).2.1.1
  have hs : pre ++ .get h loc id :: (mid ++ .get h' loc' id' :: post) =
      (pre ++ .get h loc id :: mid) ++ .get h' loc' id' :: post := by simp
  have hn : pre.length + 1 + mid.length = (pre ++ Op.get h loc id :: mid).length := by
    simp; omega
  rw [hs] at L e'
  rw [hn] at e'
  have h0' : 0 ≤ id' := (legal_append L).2.1.1
  have E' := run_at_priv _ _ _ L _ e'
  obtain ⟨a, _, _⟩ := get_has _ _ _ _ _ E
  obtain ⟨a', _, _⟩ := get_has _ _ _ _ _ E'
  have B := sound_after (pre ++ [.get h loc id]) sound_init h loc id.toNat o.serial
    (by rw [after_append]; exact a)
  have B' := belongs_after (mid ++ [.get h' loc' id']) B
  rw [← after_append] at B'
  have hq : pre ++ [Op.get h loc id] ++ (mid ++ [Op.get h' loc' id']) =
      (pre ++ .get h loc id :: mid) ++ [.get h' loc' id'] := by simp
  rw [hq, after_append] at B'
  rw [← s] at a'
  obtain ⟨x, y, z⟩ := B'.2 h' loc' id'.toNat a'
  exact ⟨x.symm, y.symm, by omega⟩

/-- A history that is allowed: an ARA* planner and a Lazy ARA* planner on one environment; the ARA*
planner frees its memory and an AD* planner takes over; both are destroyed, the table is reset, an
R* planner makes local and global records. -/
def exHist : List Op :=
  [.newState, .newState, .create 0 .ara, .create 1 .lzy, .get 0 false 1, .get 1 false 1, .get 0 false 0,
   .get 0 false 1, .get 0 false 5, .newState, .get 0 false 2, .create 2 .ad, .freeAll 0,
   .get 2 false 1, .peek 2 1, .peek 2 0, .get 1 false 1, .get 1 false 7, .destroy 2, .destroy 0, .resetMap,
   .create 3 .rstar, .get 3 false 2, .get 3 true 2, .get 3 true 2, .dropLocal 3, .get 3 true 2]

example : Legal .init exHist ∧ World.init.run exHist =
    [.nothing, .nothing, .nothing, .nothing, .record ⟨0, 1⟩, .record ⟨1, 1⟩, .record ⟨2, 0⟩,
     .record ⟨0, 1⟩, .invalid, .nothing, .record ⟨3, 2⟩, .nothing, .nothing,
     .record ⟨4, 1⟩, .known true, .known false, .record ⟨1, 1⟩, .record ⟨5, 7⟩, .nothing, .nothing, .nothing,
     .nothing, .record ⟨6, 2⟩, .record ⟨7, 2⟩, .record ⟨7, 2⟩, .nothing, .record ⟨8, 2⟩] := by
  decide +kernel

/-- An MHA* planner cleans up after itself: the next planner may be created without more ado. -/
example : Legal .init [.newState, .create 0 .mha, .get 0 false 0, .destroy 0, .create 1 .ara,
    .get 1 false 0] := by decide +kernel

/-! ## C176: what goes wrong otherwise -/

/-- **C176** (i): an ARA*, AD*, ANA*, R* or value iteration planner leaves its marks in the
environment when it is destroyed.  A new planner for the same environment then reads outside its
array at the first request for a state that the old one had seen. -/
theorem second_planner_reads_outside (k k' : Kind) (hk : k ≠ .mha ∧ k ≠ .lzy)
    (hk' : k' ≠ .lzy) :
    World.init.run [.newState, .create 0 k, .get 0 false 0, .destroy 0, .create 1 k',
      .get 1 false 0] =
    [.nothing, .nothing, .record ⟨0, 0⟩, .nothing, .nothing, .ub] := by
  cases k <;> cases k' <;> first | decide +kernel | exact absurd rfl hk' | exact absurd rfl hk.1 | exact absurd rfl hk.2

/-- **C176** (ii): two planners that use the same environment in turn receive each other's
associations: the first planner asks for its record of state 1 and gets its record of state 0,
without any error. -/
theorem interleaved_planners_confuse (k k' : Kind) (hk : k ≠ .lzy) (hk' : k' ≠ .lzy) :
    World.init.run [.newState, .newState, .create 0 k, .create 1 k', .get 0 false 0, .get 1 false 1,
      .get 0 false 1] =
    [.nothing, .nothing, .nothing, .nothing, .record ⟨0, 0⟩, .record ⟨1, 1⟩, .record ⟨0, 0⟩] := by
  cases k <;> cases k' <;> first | decide +kernel | exact absurd rfl hk' | exact absurd rfl hk

/-- **C176** (iii): `force_planning_from_scratch_and_free_memory` of one ARA* planner makes another
planner of the same environment forget its states: its next request for the same state gives a
different record. -/
theorem free_memory_affects_others (k' : Kind) (hk' : k' ≠ .lzy) :
    World.init.run [.newState, .create 0 .ara, .create 1 k', .get 1 false 0, .freeAll 0,
      .get 1 false 0] =
    [.nothing, .nothing, .nothing, .record ⟨0, 0⟩, .nothing, .record ⟨1, 0⟩] := by
  cases k' <;> first | decide +kernel | exact absurd rfl hk'

/-- None of these histories is allowed. -/
example : ¬ Legal .init [.newState, .create 0 .ara, .get 0 false 0, .destroy 0, .create 1 .ara,
      .get 1 false 0] ∧
    ¬ Legal .init [.newState, .newState, .create 0 .ara, .create 1 .ad, .get 0 false 0,
      .get 1 false 1, .get 0 false 1] ∧
    ¬ Legal .init [.newState, .create 0 .ara, .create 1 .ana, .get 1 false 0, .freeAll 0,
      .get 1 false 0] := by decide +kernel

end Sbpl.TabProps
