import Verif.Proofs.Bucket
/-!
# C163, C164: the bucket list `CBucket`

`m a = some p`: the element `a` is stored with priority `p`.  `over nb p`: the priority does not have a bucket of its own (it goes to the mixed bucket).
-/

namespace Sbpl.BucketProps
open Sbpl Sbpl.Bucket

/-- the priorities that share the mixed bucket of a list made with `CBucket(first, max)` -/
def Mixed (first max p : Nat) : Prop := max - first + 1 ≤ p ∧ p ≠ INF

/-- a list in use: what the calls so far made of it, the contents as an abstract map, and whether an element was ever taken out of the mixed bucket.
    A caller inserts an element that is not stored, with a priority up to `INFINITECOST`, and passes to `remove` the priority the element was inserted with.
    The last premise of `ins` is the price of the defect of C164: after an element has left the mixed bucket, none is put there. -/
inductive Hist (first max : Nat) : Bucket → (Nat → Option Nat) → Prop → Prop
  | new : Hist first max (Bucket.new first max) (fun _ => none) False
  | ins {st st' m D a p} : Hist first max st m D → m a = none → p ≤ INF → (D → ¬ Mixed first max p) → st.insert a p = .ok st' →
      Hist first max st' (fun x => if x = a then some p else m x) D
  | rem {st st' m D a p} : Hist first max st m D → m a = some p → st.remove a p = .ok st' →
      Hist first max st' (fun x => if x = a then none else m x) (D ∨ Mixed first max p)
  | pop {st st' m D a p} : Hist first max st m D → st.popMin = .ok (st', some a) → m a = some p →
      Hist first max st' (fun x => if x = a then none else m x) (D ∨ Mixed first max p)

theorem hist_rep {first max : Nat} {st m D} (h : Hist first max st m D) :
    ∃ d : Bool, (d = true ↔ D) ∧ Rep st m d ∧ st.nb - 2 = max - first + 1 := by
  have hu : ∀ (m : Nat → Option Nat) (a : Nat) (v : Option Nat), (fun x => if x = a then v else m x) = upd m a v := fun m a v => by
    funext x; unfold upd; rfl
  induction h with
  | new => exact ⟨false, by simp, rep_new, by simp [Bucket.new]⟩
  | @ins st st' m D a p _ ha hp hd hi ih =>
    obtain ⟨d, h1, h2, h3⟩ := ih
    obtain ⟨s, e1, e2, e3⟩ := rep_insert h2 ha hp (fun hd' => by
      have := hd (h1.mp hd'); unfold Mixed at this; rw [h3]; exact this)
    rw [e1] at hi; cases hi
    rw [hu]
    exact ⟨d, h1, e2, by rw [e3]; exact h3⟩
  | @rem st st' m D a p _ ha hi ih =>
    obtain ⟨d, h1, h2, h3⟩ := ih
    obtain ⟨s, e1, e2, e3⟩ := rep_removeAt h2 ha
    unfold remove at hi
    rw [ixR_eq h2.nb3, e1] at hi; cases hi
    rw [hu]
    exact ⟨_, by unfold Mixed; simp [h1, h3], e2, by rw [e3]; exact h3⟩
  | @pop st st' m D a p _ hi ha ih =>
    obtain ⟨d, h1, h2, h3⟩ := ih
    rcases h2.min_spec with ⟨g1, _⟩ | ⟨b, a', g1, g2, g3, g4, _⟩
    · unfold popMin at hi; rw [g1] at hi; simp at hi
    · obtain ⟨s, e1, e2, e3⟩ := rep_removeAt h2 g3
      unfold popMin at hi
      rw [g1] at hi; dsimp only at hi
      rw [g2] at hi; dsimp only at hi
      rw [← g4, e1] at hi
      simp only [Except.ok.injEq, Prod.mk.injEq, Option.some.injEq] at hi
      obtain ⟨hs, hx⟩ := hi
      subst hs; subst hx
      rw [ha] at g3
      obtain rfl : p = st.minP := by simpa using g3
      rw [hu]
      exact ⟨_, by unfold Mixed; simp [h1, h3], e2, by rw [e3]; exact h3⟩

variable {first max : Nat} {st : Bucket} {m : Nat → Option Nat} {D : Prop}

/-- the list is empty exactly if nothing is stored -/
theorem bucket_empty_iff (h : Hist first max st m D) : st.empty = true ↔ ∀ a, m a = none := by
  obtain ⟨_, _, r, _⟩ := hist_rep h
  unfold empty
  rcases r.min_spec with ⟨g1, _, g⟩ | ⟨b, a', g1, g2, g3, g4, _⟩
  · rw [g1]; simpa using g
  · rw [g1]
    constructor
    · intro h; cases h
    · intro h; rw [h a'] at g3; cases g3

/-- `getminpriority` is the least stored priority, `INFINITECOST` for an empty list -/
theorem bucket_min_priority (h : Hist first max st m D) :
    ((∀ a, m a = none) ∧ st.minPriority = INF) ∨ ((∃ a, m a = some st.minPriority) ∧ ∀ a p, m a = some p → st.minPriority ≤ p) := by
  obtain ⟨_, _, r, _⟩ := hist_rep h
  unfold minPriority
  rcases r.min_spec with ⟨_, g1, g⟩ | ⟨b, a', g1, g2, g3, g4, g5⟩
  · exact .inl ⟨g, g1⟩
  · exact .inr ⟨⟨a', g3⟩, g5⟩

/-- `getminelement` is a stored element of least priority, the null pointer for an empty list -/
theorem bucket_min_element (h : Hist first max st m D) :
    ∃ r, st.minElement = .ok r ∧ ((r = none ∧ ∀ a, m a = none) ∨ ∃ a p, r = some a ∧ m a = some p ∧ ∀ a' p', m a' = some p' → p ≤ p') := by
  obtain ⟨_, _, r, _⟩ := hist_rep h
  unfold minElement
  rcases r.min_spec with ⟨g0, g1, g⟩ | ⟨b, a', g1, g2, g3, g4, g5⟩
  · rw [g0]; exact ⟨_, rfl, .inl ⟨rfl, g⟩⟩
  · rw [g1]; dsimp only; rw [g2]; exact ⟨_, rfl, .inr ⟨a', _, rfl, g3, g5⟩⟩

/-- `popminelement` gives an element of least priority and takes out exactly it -/
theorem bucket_pop (h : Hist first max st m D) :
    ((∀ a, m a = none) ∧ st.popMin = .ok (st, none)) ∨
    ∃ a p st', st.popMin = .ok (st', some a) ∧ m a = some p ∧ (∀ a' p', m a' = some p' → p ≤ p') ∧
      Hist first max st' (fun x => if x = a then none else m x) (D ∨ Mixed first max p) := by
  obtain ⟨_, _, r, _⟩ := hist_rep h
  rcases r.min_spec with ⟨g0, g1, g⟩ | ⟨b, a', g1, g2, g3, g4, g5⟩
  · left; unfold popMin; rw [g0]; exact ⟨g, rfl⟩
  · obtain ⟨s, e1, _, _⟩ := rep_removeAt r g3
    have hp : st.popMin = .ok (s, some a') := by
      unfold popMin
      rw [g1]; dsimp only; rw [g2]; dsimp only; rw [← g4, e1]
    exact .inr ⟨a', _, s, hp, g3, g5, .pop h hp g3⟩

/-- `insert` of an element that is not stored succeeds -/
theorem bucket_insert_total (h : Hist first max st m D) {a p : Nat} (ha : m a = none) (hp : p ≤ INF) (hd : D → ¬ Mixed first max p) :
    ∃ st', st.insert a p = .ok st' ∧ Hist first max st' (fun x => if x = a then some p else m x) D := by
  obtain ⟨d, h1, r, h3⟩ := hist_rep h
  obtain ⟨s, e1, _, _⟩ := rep_insert r ha hp (fun hd' => by
    have := hd (h1.mp hd'); unfold Mixed at this; rw [h3]; exact this)
  exact ⟨s, e1, .ins h ha hp hd e1⟩

/-- `remove` of a stored element with its priority succeeds -/
theorem bucket_remove_total (h : Hist first max st m D) {a p : Nat} (ha : m a = some p) :
    ∃ st', st.remove a p = .ok st' ∧ Hist first max st' (fun x => if x = a then none else m x) (D ∨ Mixed first max p) := by
  obtain ⟨d, h1, r, h3⟩ := hist_rep h
  obtain ⟨s, e1, _, _⟩ := rep_removeAt r ha
  have e : st.remove a p = .ok s := by unfold remove; rw [ixR_eq r.nb3, e1]
  exact ⟨s, e, .rem h ha e⟩

/-- `reset` gives an empty list for the new range, whatever was in the list, if every stored state has its index cleared by the loop over the vectors -/
theorem bucket_reset (h : Hist first max st m D) (first' max' : Nat) : Hist first' max' (st.reset first' max') (fun _ => none) False := by
  obtain ⟨d, h1, r, h3⟩ := hist_rep h
  have : st.reset first' max' = Bucket.new first' max' := by
    unfold reset makeEmpty Bucket.new
    dsimp only
    congr 1
    funext a
    cases hm : m a with
    | none => rw [r.out a hm]; simp
    | some p =>
      obtain ⟨i, _, hi⟩ := r.fwd a p hm
      rw [if_pos ⟨_, ixI_lt r.nb3 p, List.mem_of_getElem? hi⟩]
  rw [this]
  exact .new

/-- popping until the list is empty: the elements with their priorities -/
inductive Drain : Bucket → List Nat → Prop
  | done {s : Bucket} : s.popMin = .ok (s, none) → Drain s []
  | step {s s' : Bucket} {a : Nat} {l : List Nat} : s.popMin = .ok (s', some a) → Drain s' l → Drain s (a :: l)

/-- popping everything gives the stored elements in order of priority -/
theorem bucket_drain_sorted {l : List Nat} (hd : Drain st l) : ∀ {m D}, Hist first max st m D →
    (∀ a, a ∈ l ↔ ∃ p, m a = some p) ∧ l.Nodup ∧ l.Pairwise (fun a b => ∀ p q, m a = some p → m b = some q → p ≤ q) := by
  induction hd with
  | @done st hp =>
    intro m D h
    rcases bucket_pop h with ⟨h1, _⟩ | ⟨a, p, st', h1, _⟩
    · exact ⟨fun a => by simp [h1], List.nodup_nil, List.Pairwise.nil⟩
    · rw [h1] at hp; simp at hp
  | @step st st' a l hp _ ih =>
    intro m D h
    rcases bucket_pop h with ⟨_, h1⟩ | ⟨a', p, st'', h1, h2, h3, h4⟩
    · rw [h1] at hp; simp at hp
    · rw [h1] at hp
      simp only [Except.ok.injEq, Prod.mk.injEq, Option.some.injEq] at hp
      obtain ⟨hs, hx⟩ := hp
      subst hs; subst hx
      obtain ⟨k1, k2, k3⟩ := ih h4
      have hna : a' ∉ l := fun hc => by
        obtain ⟨q, hq⟩ := (k1 a').mp hc
        simp at hq
      refine ⟨fun x => ?_, List.nodup_cons.mpr ⟨hna, k2⟩, List.pairwise_cons.mpr ⟨fun b _ p' q hp' hq => ?_, ?_⟩⟩
      · rw [List.mem_cons, k1 x]
        by_cases e : x = a'
        · subst e; simp [h2]
        · simp [e]
      · rw [h2] at hp'; cases hp'; exact h3 b q hq
      · refine List.Pairwise.imp_of_mem (fun {x y} hx hy hxy p' q hp' hq => hxy p' q ?_ ?_) k3
        · rw [if_neg (fun e => hna (by rw [← e]; exact hx))]; exact hp'
        · rw [if_neg (fun e => hna (by rw [← e]; exact hy))]; exact hq

/-! ## Refuted (C164) -/

/-- insertions and pops in turn; the popped elements, with the priority reported before each pop -/
def script : Bucket → List (Option (Nat × Nat)) → Option (List (Nat × Option Nat))
  | _, [] => some []
  | st, some (a, p) :: l =>
    match st.insert a p with
    | .error _ => none
    | .ok st' => script st' l
  | st, none :: l =>
    match st.popMin with
    | .error _ => none
    | .ok (st', r) => (script st' l).map ((st.minPriority, r) :: ·)

/-- after an element has left the mixed bucket, its priority stays in the parallel vector, and the next element put there is reported with it: 9 as 5 -/
theorem bucket_stale_priority : script (Bucket.new 0 0) [some (1, 5), none, some (2, 9), none] = some [(5, some 1), (5, some 2)] := by decide +kernel

/-- … and elements come out in the wrong order: priority 9 before priority 7 -/
theorem bucket_wrong_order : script (Bucket.new 0 0) [some (1, 5), none, some (2, 9), some (3, 7), none, none] =
    some [(5, some 1), (5, some 2), (9, some 3)] := by decide +kernel

/-- the same calls on a list whose range covers the priorities are right -/
theorem bucket_right_order : script (Bucket.new 0 20) [some (1, 5), none, some (2, 9), some (3, 7), none, none] =
    some [(5, some 1), (7, some 3), (9, some 2)] := by decide +kernel

/-- `makeemptybucketV` reports an empty list but keeps the elements: the next insertion into the bucket brings an old one back, and the inserted one is not the minimum -/
theorem bucket_makeempty_keeps :
    (match (Bucket.new 0 20).insert 1 5 with
     | .error _ => none
     | .ok st => (match st.makeEmpty.insert 2 5 with
       | .error _ => none
       | .ok st' => (st'.minElement.toOption.map fun r => (st.makeEmpty.empty, st.makeEmpty.hidx 1, r)))) = some (true, none, some 1) := by decide +kernel

/-- the lower end of the range is not used as an offset: with the range 100 to 110 every priority of the range shares the mixed bucket -/
theorem bucket_range_ignored (first p : Nat) (h : max < 2 * first) (h1 : first ≤ max) (h2 : first ≤ p) (h3 : p < INF) : (Bucket.new first max).ixI p = (Bucket.new first max).nb - 2 := by
  unfold ixI Bucket.new
  simp only
  rw [if_neg (by omega), if_pos (by omega)]

/-! ## Non-vacuity -/

/-- a history with an element in each kind of bucket, and one taken out of the mixed bucket -/
example : ∃ st m, Hist 0 3 st m True ∧ m 1 = some 2 ∧ m 2 = some 7 ∧ m 3 = some INF ∧ m 4 = none ∧ st.minPriority = 2 := by
  obtain ⟨s1, h1, g1⟩ := bucket_insert_total (Hist.new (first := 0) (max := 3)) (a := 1) (p := 2) rfl (by decide) (by simp)
  obtain ⟨s2, h2, g2⟩ := bucket_insert_total g1 (a := 2) (p := 7) rfl (by decide) (by simp)
  obtain ⟨s3, h3, g3⟩ := bucket_insert_total g2 (a := 3) (p := INF) rfl (by decide) (by simp)
  obtain ⟨s4, h4, g4⟩ := bucket_insert_total g3 (a := 4) (p := 9) rfl (by decide) (by simp)
  obtain ⟨s5, h5, g5⟩ := bucket_remove_total g4 (a := 4) (p := 9) rfl
  have hm : (False ∨ Mixed 0 3 9) = True := by simp [Mixed, INF]
  rw [hm] at g5
  refine ⟨s5, _, g5, rfl, rfl, rfl, rfl, ?_⟩
  rcases bucket_min_priority g5 with ⟨h, _⟩ | ⟨⟨a, ha⟩, h⟩
  · exact absurd (h 1) (by simp)
  · have h12 := h 1 2 rfl
    by_cases e4 : a = 4
    · simp [e4] at ha
    · by_cases e3 : a = 3
      · simp [e3, INF] at ha; omega
      · by_cases e2 : a = 2
        · simp [e2] at ha; omega
        · by_cases e1 : a = 1
          · simp [e1] at ha; exact ha.symm
          · simp [e1, e2, e3, e4] at ha

end Sbpl.BucketProps
