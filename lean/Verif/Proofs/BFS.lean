import Verif.Model.BFS
import Verif.Spec.BFS
import Verif.Proofs.Fifo
import Mathlib.Tactic.SplitIfs
import Mathlib.Data.List.Nodup
/-! # Breadth-first search: generic invariant -/

namespace Sbpl
namespace BFS
open BfsSpec

section generic
variable {α : Type} [DecidableEq α]

theorem setD_same (f : α → Int) (a : α) (v : Int) : setD f a v a = v := by simp [setD]
theorem setD_other (f : α → Int) {a b : α} (v : Int) (h : b ≠ a) : setD f a v b = f b := by simp [setD, h]

/-- number of unlabelled cells -/
def unl (cells : List α) (dist : α → Int) : Nat := (cells.filter (fun c => decide (dist c < 0))).length

theorem unl_set_le (cells : List α) (dist : α → Int) (c : α) {v : Int} (hv : 0 ≤ v) :
    unl cells (setD dist c v) ≤ unl cells dist := by
  unfold unl
  induction cells with
  | nil => simp
  | cons a as ih =>
    simp only [List.filter_cons]
    by_cases ha : a = c
    · subst ha
      simp only [setD_same]
      have : ¬ v < 0 := by omega
      simp only [this, decide_false, Bool.false_eq_true, if_false]
      split_ifs
      · simp only [List.length_cons]; omega
      · exact ih
    · simp only [setD_other _ _ ha]
      split_ifs
      · simp only [List.length_cons]; omega
      · exact ih

theorem unl_set_lt (cells : List α) (dist : α → Int) (c : α) {v : Int} (hv : 0 ≤ v) (hc : c ∈ cells) (hd : dist c < 0) :
    unl cells (setD dist c v) + 1 ≤ unl cells dist := by
  induction cells with
  | nil => simp at hc
  | cons a as ih =>
    have hle := unl_set_le as dist c hv
    by_cases ha : a = c
    · subst ha
      unfold unl at *
      simp only [List.filter_cons, setD_same]
      have : ¬ v < 0 := by omega
      simp only [this, decide_false, Bool.false_eq_true, if_false, hd, decide_true, if_true, List.length_cons]
      omega
    · have hm : c ∈ as := by
        rcases List.mem_cons.mp hc with h | h
        · exact absurd h.symm ha
        · exact h
      have := ih hm
      unfold unl at *
      simp only [List.filter_cons, setD_other _ _ ha]
      split_ifs <;> simp <;> omega

theorem Fifo_insert_full {n : Nat} {f : Fifo α} {l : List α} (r : Fifo.Rel n f l) (v : α) (h : l.length = n - 1) :
    f.insert v = (f, false) := by
  have : f.isFull = true := by rw [r.full]; simp [h]
  simp [Fifo.insert, this]

/-- Loop invariant of the breadth-first search; `l` is the content of the queue, `cells` the map, `cap` the size of the
ring buffer, `done c` the cells whose neighbours have been examined. -/
structure Good (nb : α → List α) (free : α → Bool) (src : α → Prop) (cells : List α) (cap : Nat)
    (s : St α) (l : List α) : Prop where
  rel : Fifo.Rel cap s.q l
  mem : ∀ c ∈ l, c ∈ cells ∧ 0 ≤ s.dist c
  lab : ∀ c ∈ cells, s.dist c = -1 ∨ 0 ≤ s.dist c
  sound : ∀ c ∈ cells, 0 ≤ s.dist c → Steps (fun a b => b ∈ nb a) (fun c => free c = true) src c (s.dist c).toNat
  sorted : l.Pairwise (fun a b => s.dist a ≤ s.dist b)
  near : ∀ x ∈ l, ∀ y ∈ cells, s.dist y ≤ s.dist x + 1

/-- every labelled cell outside the queue has all its free neighbours labelled (when nothing was rejected) -/
def Closed (nb : α → List α) (free : α → Bool) (cells : List α) (s : St α) (l : List α) : Prop :=
  s.rej = false → ∀ c ∈ cells, 0 ≤ s.dist c → c ∉ l → ∀ d ∈ nb c, free d = true → 0 ≤ s.dist d ∧ s.dist d ≤ s.dist c + 1

/-- invariant of the successor loop for the removed cell `c` with the neighbours `rest` still to examine -/
structure Mid (nb : α → List α) (free : α → Bool) (src : α → Prop) (cells : List α) (cap : Nat)
    (c : α) (seen : List α) (s : St α) (l : List α) : Prop where
  good : Good nb free src cells cap s l
  cc : c ∈ cells
  c0 : 0 ≤ s.dist c
  cle : ∀ x ∈ l, s.dist c ≤ s.dist x
  cnear : ∀ y ∈ cells, s.dist y ≤ s.dist c + 1
  cl : s.rej = false → ∀ e ∈ cells, 0 ≤ s.dist e → e ∉ l → e ≠ c → ∀ d ∈ nb e, free d = true →
    0 ≤ s.dist d ∧ s.dist d ≤ s.dist e + 1
  sn : ∀ d ∈ seen, free d = true → 0 ≤ s.dist d ∧ s.dist d ≤ s.dist c + 1

theorem visit_mid {nb : α → List α} {free : α → Bool} {src : α → Prop} {cells : List α} {cap : Nat}
    {c d : α} {seen : List α} {s : St α} {l : List α} (hd : d ∈ cells) (hnb : d ∈ nb c)
    (m : Mid nb free src cells cap c seen s l) (v : Int) (hv : v = s.dist c + 1) :
    ∃ l', Mid nb free src cells cap c (seen ++ [d]) (visit free v s d) l' ∧
      (visit free v s d).dist c = s.dist c ∧
      l'.length + unl cells (visit free v s d).dist ≤ l.length + unl cells s.dist ∧
      (l.length + unl cells s.dist < cap → (visit free v s d).rej = s.rej) := by
  obtain ⟨g, cc, c0, cle, cnear, cl, sn⟩ := m
  unfold visit
  split_ifs with h
  · obtain ⟨hneg, hfree⟩ := h
    have hdc : d ≠ c := by rintro rfl; omega
    have hcd : c ≠ d := fun h => hdc h.symm
    have hdl : d ∉ l := fun hm => by have := (g.mem d hm).2; omega
    have hv0 : 0 ≤ v := by omega
    have hS : Steps (fun a b => b ∈ nb a) (fun c => free c = true) src d v.toNat := by
      have := Steps.move (g.sound c cc c0) hnb hfree
      have e : v.toNat = (s.dist c).toNat + 1 := by omega
      rw [e]; exact this
    have hunl := unl_set_lt cells s.dist d hv0 hd hneg
    -- facts independent of the queue
    have lab' : ∀ e ∈ cells, setD s.dist d v e = -1 ∨ 0 ≤ setD s.dist d v e := by
      intro e he
      by_cases ed : e = d
      · subst ed; rw [setD_same]; right; exact hv0
      · rw [setD_other _ _ ed]; exact g.lab e he
    have sound' : ∀ e ∈ cells, 0 ≤ setD s.dist d v e →
        Steps (fun a b => b ∈ nb a) (fun c => free c = true) src e (setD s.dist d v e).toNat := by
      intro e he
      by_cases ed : e = d
      · subst ed; rw [setD_same]; intro _; exact hS
      · rw [setD_other _ _ ed]; exact g.sound e he
    have same : ∀ e ∈ l, setD s.dist d v e = s.dist e := by
      intro e he
      exact setD_other _ _ (fun h => hdl (h ▸ he))
    have cnear' : ∀ y ∈ cells, setD s.dist d v y ≤ setD s.dist d v c + 1 := by
      intro y hy
      rw [setD_other _ _ hcd]
      by_cases yd : y = d
      · subst yd; rw [setD_same]; omega
      · rw [setD_other _ _ yd]; exact cnear y hy
    have near' : ∀ x ∈ l, ∀ y ∈ cells, setD s.dist d v y ≤ setD s.dist d v x + 1 := by
      intro x hx y hy
      rw [same x hx]
      have := cnear' y hy
      rw [setD_other _ _ hcd] at this
      have := cle x hx
      omega
    have sn' : ∀ e ∈ seen ++ [d], free e = true → 0 ≤ setD s.dist d v e ∧ setD s.dist d v e ≤ setD s.dist d v c + 1 := by
      intro e he hf
      rw [setD_other _ _ hcd]
      by_cases ed : e = d
      · subst ed; rw [setD_same]; omega
      · rw [setD_other _ _ ed]
        rcases List.mem_append.mp he with h | h
        · exact sn e h hf
        · simp at h; exact absurd h ed
    have clold : s.rej = false → ∀ e ∈ cells, 0 ≤ setD s.dist d v e → e ∉ l → e ≠ c → e ≠ d → ∀ x ∈ nb e, free x = true →
        0 ≤ setD s.dist d v x ∧ setD s.dist d v x ≤ setD s.dist d v e + 1 := by
      intro hr e he h0 hel hec hed x hx hf
      rw [setD_other _ _ hed] at h0 ⊢
      have h1 := cl hr e he h0 hel hec x hx hf
      by_cases xd : x = d
      · subst xd; omega
      · rw [setD_other _ _ xd]; exact h1
    have sorted' : l.Pairwise (fun a b => setD s.dist d v a ≤ setD s.dist d v b) := by
      refine List.Pairwise.imp_of_mem ?_ g.sorted
      intro a b ha hb hab
      rw [same a ha, same b hb]; exact hab
    by_cases hfull : l.length = cap - 1
    · -- the queue is full: the cell is labelled but dropped
      have hi := Fifo_insert_full g.rel d hfull
      refine ⟨l, ⟨⟨?_, ?_, lab', sound', sorted', near'⟩, cc, ?_, ?_, cnear', ?_, sn'⟩, ?_, ?_, ?_⟩
      · simpa [St.push, hi] using g.rel
      · intro e he
        refine ⟨(g.mem e he).1, ?_⟩
        show 0 ≤ setD s.dist d v e
        rw [same e he]; exact (g.mem e he).2
      · show 0 ≤ setD s.dist d v c
        rw [setD_other _ _ hcd]; exact c0
      · intro x hx
        show setD s.dist d v c ≤ setD s.dist d v x
        rw [setD_other _ _ hcd, same x hx]; exact cle x hx
      · intro hr
        simp [St.push, hi] at hr
      · exact setD_other _ _ hcd
      · show l.length + unl cells (setD s.dist d v) ≤ _
        omega
      · intro hlt
        have : cap ≥ 1 := g.rel.npos
        omega
    · obtain ⟨ht, hrel⟩ := g.rel.insert d hfull
      refine ⟨l ++ [d], ⟨⟨hrel, ?_, lab', sound', ?_, ?_⟩, cc, ?_, ?_, cnear', ?_, sn'⟩, ?_, ?_, ?_⟩
      · intro e he
        rcases List.mem_append.mp he with h | h
        · refine ⟨(g.mem e h).1, ?_⟩
          show 0 ≤ setD s.dist d v e
          rw [same e h]; exact (g.mem e h).2
        · simp at h; subst h
          refine ⟨hd, ?_⟩
          show 0 ≤ setD s.dist e v e
          rw [setD_same]; exact hv0
      · show (l ++ [d]).Pairwise (fun a b => setD s.dist d v a ≤ setD s.dist d v b)
        rw [List.pairwise_append]
        refine ⟨sorted', by simp, ?_⟩
        intro a ha b hb
        simp at hb; subst hb
        rw [setD_same, same a ha]
        have := cnear a ((g.mem a ha).1)
        omega
      · intro x hx y hy
        show setD s.dist d v y ≤ setD s.dist d v x + 1
        rcases List.mem_append.mp hx with h | h
        · exact near' x h y hy
        · simp at h; subst h
          have := cnear' y hy
          rw [setD_other _ _ hcd] at this
          rw [setD_same]; omega
      · show 0 ≤ setD s.dist d v c
        rw [setD_other _ _ hcd]; exact c0
      · intro x hx
        show setD s.dist d v c ≤ setD s.dist d v x
        rw [setD_other _ _ hcd]
        rcases List.mem_append.mp hx with h | h
        · rw [same x h]; exact cle x h
        · simp at h; subst h; rw [setD_same]; omega
      · intro hr e he h0 hel hec
        have hr' : s.rej = false := by simpa [St.push, ht] using hr
        simp only [List.mem_append, List.mem_singleton, not_or] at hel
        exact clold hr' e he h0 hel.1 hec hel.2
      · exact setD_other _ _ hcd
      · show (l ++ [d]).length + unl cells (setD s.dist d v) ≤ _
        simp only [List.length_append, List.length_singleton]
        omega
      · intro _
        simp [St.push, ht]
  · refine ⟨l, ⟨g, cc, c0, cle, cnear, cl, ?_⟩, rfl, Nat.le_refl _, fun _ => rfl⟩
    intro e he hf
    rcases List.mem_append.mp he with h' | h'
    · exact sn e h' hf
    · simp at h'; subst h'
      have h0 : 0 ≤ s.dist e := by
        by_contra hh
        exact h ⟨by omega, hf⟩
      exact ⟨h0, cnear e hd⟩

theorem fold_mid {nb : α → List α} {free : α → Bool} {src : α → Prop} {cells : List α} {cap : Nat} {c : α} :
    ∀ (ds seen : List α) (s : St α) (l : List α) (v : Int), (∀ d ∈ ds, d ∈ cells ∧ d ∈ nb c) →
    Mid nb free src cells cap c seen s l → v = s.dist c + 1 →
    ∃ l', Mid nb free src cells cap c (seen ++ ds) (ds.foldl (visit free v) s) l' ∧
      l'.length + unl cells (ds.foldl (visit free v) s).dist ≤ l.length + unl cells s.dist ∧
      (l.length + unl cells s.dist < cap → (ds.foldl (visit free v) s).rej = s.rej)
  | [], seen, s, l, v, _, m, _ => ⟨l, by simpa using m, Nat.le_refl _, fun _ => rfl⟩
  | d :: ds, seen, s, l, v, hds, m, hv => by
    obtain ⟨h1, h2⟩ := hds d (by simp)
    obtain ⟨l1, m1, e1, n1, r1⟩ := visit_mid h1 h2 m v hv
    obtain ⟨l2, m2, n2, r2⟩ := fold_mid ds (seen ++ [d]) (visit free v s d) l1 v
      (fun x hx => hds x (by simp [hx])) m1 (by rw [e1]; exact hv)
    refine ⟨l2, by simpa using m2, by simpa using Nat.le_trans n2 n1, ?_⟩
    intro hlt
    rw [List.foldl_cons, r2 (by omega), r1 hlt]

theorem pass_good {nb : α → List α} {free : α → Bool} {src : α → Prop} {cells : List α} {cap : Nat}
    {s : St α} {c : α} {l : List α} (hnb : ∀ c ∈ cells, ∀ d ∈ nb c, d ∈ cells)
    (g : Good nb free src cells cap s (c :: l)) (cl : Closed nb free cells s (c :: l)) :
    ∃ l', Good nb free src cells cap (pass nb free s) l' ∧ Closed nb free cells (pass nb free s) l' ∧
      l'.length + unl cells (pass nb free s).dist < (c :: l).length + unl cells s.dist ∧
      ((c :: l).length + unl cells s.dist ≤ cap → (pass nb free s).rej = s.rej) := by
  obtain ⟨hv, hrel⟩ := g.rel.remove
  have hc := g.mem c (by simp)
  have hs := List.pairwise_cons.mp g.sorted
  have m : Mid nb free src cells cap c [] { s with q := s.q.remove.1 } l :=
    ⟨⟨hrel, fun e he => g.mem e (by simp [he]), g.lab, g.sound, hs.2, fun x hx => g.near x (by simp [hx])⟩,
      hc.1, hc.2, hs.1, g.near c (by simp), by
        intro hr e he h0 hel hec
        exact cl hr e he h0 (by simp [hec, hel]), by simp⟩
  obtain ⟨l', m', n', r'⟩ := fold_mid (nb c) [] _ l (s.dist c + 1) (fun d hd => ⟨hnb c hc.1 d hd, hd⟩) m rfl
  have hp : pass nb free s = (nb c).foldl (visit free (s.dist c + 1)) { s with q := s.q.remove.1 } := by
    unfold pass
    have : s.q.remove = (s.q.remove.1, some c) := by rw [← hv]
    rw [this]
  rw [← hp] at m' n' r'
  refine ⟨l', m'.good, ?_, ?_, ?_⟩
  · intro hr e he h0 hel d hd hf
    by_cases hec : e = c
    · subst hec
      exact m'.sn d (by simpa using hd) hf
    · exact m'.cl hr e he h0 hel hec d hd hf
  · simp only [List.length_cons]; simp only at n'; omega
  · intro h
    simp only [List.length_cons] at h
    exact r' (by simp only; omega)

theorem isEmpty_iff {cap : Nat} {f : Fifo α} {l : List α} (r : Fifo.Rel cap f l) : f.isEmpty = l.isEmpty := by
  have := (r.step .isEmpty).1
  simpa [Fifo.step, FifoSpec.step] using this

theorem compute_good {nb : α → List α} {free : α → Bool} {src : α → Prop} {cells : List α} {cap : Nat}
    (hnb : ∀ c ∈ cells, ∀ d ∈ nb c, d ∈ cells) :
    ∀ (fuel : Nat) (s : St α) (l : List α), Good nb free src cells cap s l → Closed nb free cells s l →
    (∀ c ∈ cells, src c → s.dist c = 0) → l.length + unl cells s.dist ≤ fuel →
    ∃ s', computeDistances nb free fuel s = some s' ∧ Good nb free src cells cap s' [] ∧ Closed nb free cells s' [] ∧
      (l.length + unl cells s.dist ≤ cap → s'.rej = s.rej) ∧ (∀ c ∈ cells, src c → s'.dist c = 0) := by
  intro fuel
  induction fuel with
  | zero =>
    intro s l g cl hs hf
    have : l = [] := List.length_eq_zero_iff.mp (by omega)
    subst this
    refine ⟨s, ?_, g, cl, fun _ => rfl, hs⟩
    simp [computeDistances, isEmpty_iff g.rel]
  | succ n ih =>
    intro s l g cl hs hf
    match l, g, cl, hf with
    | [], g, cl, hf => exact ⟨s, by simp [computeDistances, isEmpty_iff g.rel], g, cl, fun _ => rfl, hs⟩
    | c :: l, g, cl, hf =>
      obtain ⟨l', g', cl', n', r'⟩ := pass_good hnb g cl
      have hsrc : ∀ e ∈ cells, src e → (pass nb free s).dist e = 0 := by
        intro e he hse
        exact (by
          have hm : ∀ (ds : List α) (v : Int) (t : St α), 0 ≤ t.dist e →
              (ds.foldl (visit free v) t).dist e = t.dist e := by
            intro ds v
            induction ds with
            | nil => intro t _; rfl
            | cons d ds ihd =>
              intro t ht
              have h1 : (visit free v t d).dist e = t.dist e := by
                unfold visit
                split_ifs with hh
                · show setD t.dist d v e = _
                  apply setD_other
                  rintro rfl
                  omega
                · rfl
              rw [List.foldl_cons, ihd _ (by omega), h1]
          unfold pass
          split
          · rw [hm _ _ _ (by simp only; rw [hs e he hse])]
            exact hs e he hse
          · exact hs e he hse)
      obtain ⟨s', h1, h2, h3, h4, h5⟩ := ih (pass nb free s) l' g' cl' hsrc (by omega)
      refine ⟨s', ?_, h2, h3, ?_, h5⟩
      · have : s.q.isEmpty = false := by rw [isEmpty_iff g.rel]; rfl
        rw [computeDistances, this]
        exact h1
      · intro hc
        rw [h4 (by omega), r' hc]

/-- at the end the labels are the distances -/
theorem exact_of_good {nb : α → List α} {free : α → Bool} {src : α → Prop} {cells : List α} {cap : Nat} {s : St α}
    (hnb : ∀ c ∈ cells, ∀ d ∈ nb c, d ∈ cells) (hsrc : ∀ c, src c → c ∈ cells ∧ s.dist c = 0)
    (g : Good nb free src cells cap s []) (cl : Closed nb free cells s []) (hr : s.rej = false)
    {c : α} (hc : c ∈ cells) :
    IsDist (fun a b => b ∈ nb a) (fun c => free c = true) src c (s.dist c) := by
  have key : ∀ e m, Steps (fun a b => b ∈ nb a) (fun c => free c = true) src e m →
      e ∈ cells ∧ 0 ≤ s.dist e ∧ s.dist e ≤ m := by
    intro e m hm
    induction hm with
    | source h => exact ⟨(hsrc _ h).1, by rw [(hsrc _ h).2], by rw [(hsrc _ h).2]; simp⟩
    | move h ha hf ih =>
      obtain ⟨i1, i2, i3⟩ := ih
      have := cl hr _ i1 i2 (by simp) _ ha hf
      exact ⟨hnb _ i1 _ ha, this.1, by push_cast; omega⟩
  rcases g.lab c hc with h | h
  · right
    refine ⟨h, fun m hm => ?_⟩
    have := (key c m hm).2.1
    omega
  · left
    refine ⟨(s.dist c).toNat, by omega, g.sound c hc h, fun m hm => ?_⟩
    have := (key c m hm).2.2
    omega

/-! ### marking the sources -/

/-- invariant while the sources `S` have been inserted -/
structure Ini (cells : List α) (cap : Nat) (S : α → Prop) (s : St α) (l : List α) : Prop where
  rel : Fifo.Rel cap s.q l
  mem : ∀ c ∈ l, c ∈ cells ∧ s.dist c = 0
  dst : ∀ c ∈ cells, (S c ∧ s.dist c = 0) ∨ (¬ S c ∧ s.dist c = -1)
  sub : ∀ c, S c → c ∈ cells
  full : s.rej = false → ∀ c, S c → c ∈ l

theorem Ini.good {nb : α → List α} {free : α → Bool} {cells : List α} {cap : Nat} {S : α → Prop} {s : St α} {l : List α}
    (i : Ini cells cap S s l) : Good nb free S cells cap s l ∧ Closed nb free cells s l ∧ ∀ c ∈ cells, S c → s.dist c = 0 := by
  refine ⟨⟨i.rel, fun c hc => ⟨(i.mem c hc).1, by rw [(i.mem c hc).2]⟩, ?_, ?_, ?_, ?_⟩, ?_, ?_⟩
  · intro c hc
    rcases i.dst c hc with h | h
    · right; rw [h.2]
    · left; exact h.2
  · intro c hc h0
    rcases i.dst c hc with h | h
    · rw [h.2]; exact Steps.source h.1
    · omega
  · apply List.pairwise_of_forall_mem_list
    intro a ha b hb
    rw [(i.mem a ha).2, (i.mem b hb).2]
  · intro x hx y hy
    rw [(i.mem x hx).2]
    rcases i.dst y hy with h | h <;> omega
  · intro hr c hc h0 hcl
    rcases i.dst c hc with h | h
    · exact absurd (i.full hr c h.1) hcl
    · omega
  · intro c hc hs
    rcases i.dst c hc with h | h
    · exact h.2
    · exact absurd hs h.1

theorem Ini.source {cells : List α} {cap : Nat} {S : α → Prop} {s : St α} {l : List α} {c : α}
    (i : Ini cells cap S s l) (hc : c ∈ cells) :
    ∃ l', Ini cells cap (fun x => x = c ∨ S x) (s.source c) l' ∧
      l'.length + unl cells (s.source c).dist ≤ l.length + unl cells s.dist + 1 ∧
      (¬ S c → l'.length + unl cells (s.source c).dist ≤ l.length + unl cells s.dist) ∧
      (l.length + 1 < cap → (s.source c).rej = s.rej) := by
  have u1 := unl_set_le cells s.dist c (v := 0) (by omega)
  have u2 : ¬ S c → unl cells (setD s.dist c 0) + 1 ≤ unl cells s.dist := by
    intro h
    apply unl_set_lt _ _ _ (by omega) hc
    rcases i.dst c hc with h' | h'
    · exact absurd h'.1 h
    · omega
  have dst' : ∀ x ∈ cells, ((x = c ∨ S x) ∧ setD s.dist c 0 x = 0) ∨ (¬ (x = c ∨ S x) ∧ setD s.dist c 0 x = -1) := by
    intro x hx
    by_cases e : x = c
    · subst e; left; exact ⟨Or.inl rfl, setD_same _ _ _⟩
    · rw [setD_other _ _ e]
      rcases i.dst x hx with h | h
      · exact Or.inl ⟨Or.inr h.1, h.2⟩
      · exact Or.inr ⟨by simp [e, h.1], h.2⟩
  have mem0 : ∀ x ∈ l, x ∈ cells ∧ setD s.dist c 0 x = 0 := by
    intro x hx
    refine ⟨(i.mem x hx).1, ?_⟩
    by_cases e : x = c
    · subst e; exact setD_same _ _ _
    · rw [setD_other _ _ e]; exact (i.mem x hx).2
  have sub' : ∀ x, (x = c ∨ S x) → x ∈ cells := by
    rintro x (rfl | h)
    · exact hc
    · exact i.sub x h
  by_cases hfull : l.length = cap - 1
  · have hi := Fifo_insert_full i.rel c hfull
    refine ⟨l, ⟨?_, mem0, dst', sub', ?_⟩, ?_, ?_, ?_⟩
    · simpa [St.source, St.push, hi] using i.rel
    · intro hr; simp [St.source, St.push, hi] at hr
    · show l.length + unl cells (setD s.dist c 0) ≤ _
      omega
    · intro h
      have := u2 h
      show l.length + unl cells (setD s.dist c 0) ≤ _
      omega
    · intro h
      omega
  · obtain ⟨ht, hrel⟩ := i.rel.insert c hfull
    refine ⟨l ++ [c], ⟨hrel, ?_, dst', sub', ?_⟩, ?_, ?_, ?_⟩
    · intro x hx
      rcases List.mem_append.mp hx with h | h
      · exact mem0 x h
      · simp at h; subst h; exact ⟨hc, setD_same _ _ _⟩
    · intro hr x hx
      have hr' : s.rej = false := by simpa [St.source, St.push, ht] using hr
      rcases hx with rfl | h
      · simp
      · simp [i.full hr' x h]
    · show (l ++ [c]).length + unl cells (setD s.dist c 0) ≤ _
      simp only [List.length_append, List.length_singleton]; omega
    · intro h
      have := u2 h
      show (l ++ [c]).length + unl cells (setD s.dist c 0) ≤ _
      simp only [List.length_append, List.length_singleton]; omega
    · intro _
      simp [St.source, St.push, ht]

theorem clear_rel {cap : Nat} {f : Fifo α} (h : f.size = cap) (hc : 1 ≤ cap) : Fifo.Rel cap f.clear [] :=
  ⟨h, hc, hc, by simp [Fifo.pos, Fifo.clear, h], hc, by intro i hi; simp at hi⟩

theorem foldl_clear (cells : List α) : ∀ (d : α → Int) (c : α),
    (cells.foldl (fun d c => setD d c (-1)) d) c = if c ∈ cells then -1 else d c := by
  induction cells with
  | nil => intro d c; simp
  | cons a as ih =>
    intro d c
    rw [List.foldl_cons, ih]
    by_cases h1 : c ∈ as
    · simp [h1]
    · by_cases h2 : c = a
      · subst h2; simp [h1, setD_same]
      · simp [h1, h2, setD_other]

theorem unl_all (cells : List α) (d : α → Int) : unl cells d ≤ cells.length := List.length_filter_le _ _

theorem Ini.clear {cells : List α} {cap : Nat} {q : Fifo α} {d : α → Int} (h : q.size = cap) (hc : 1 ≤ cap) :
    Ini cells cap (fun _ => False) ⟨q.clear, cells.foldl (fun d c => setD d c (-1)) d, false⟩ [] := by
  refine ⟨clear_rel h hc, by simp, ?_, by simp, by simp⟩
  intro c hm
  right
  exact ⟨id, by simp only [foldl_clear, hm, if_true]⟩

/-- the sources of `sources`/`fromObs` -/
theorem Ini.sources {inB : α → Bool} {cells : List α} {cap : Nat} (hin : ∀ c, inB c = true → c ∈ cells) :
    ∀ (ps : List α) (S : α → Prop) (s : St α) (l : List α), Ini cells cap S s l →
    ∃ l' S', Ini cells cap S' (sources inB ps s).1 l' ∧
      ((sources inB ps s).2 = ps.all inB) ∧
      ((sources inB ps s).2 = true → (∀ x, S' x ↔ S x ∨ x ∈ ps)) ∧
      l'.length + unl cells (sources inB ps s).1.dist ≤ l.length + unl cells s.dist + ps.length ∧
      ((sources inB ps s).2 = true → l.length + unl cells s.dist + ps.length < cap →
        (sources inB ps s).1.rej = s.rej) := by
  intro ps
  induction ps with
  | nil => intro S s l i; exact ⟨l, S, by simpa [BFS.sources] using i, rfl, by simp, by simp [BFS.sources], by simp [BFS.sources]⟩
  | cons c ps ih =>
    intro S s l i
    by_cases hb : inB c = false
    · refine ⟨l, S, by simpa [BFS.sources, hb] using i, by simp [BFS.sources, hb], by simp [BFS.sources, hb], by simp [BFS.sources, hb],
        by simp [BFS.sources, hb]⟩
    · have hb' : inB c = true := by simpa using hb
      obtain ⟨l1, i1, n1, _, r1⟩ := i.source (hin c hb')
      obtain ⟨l2, S2, i2, b2, e2, n2, r2⟩ := ih _ _ _ i1
      have e : BFS.sources inB (c :: ps) s = BFS.sources inB ps (s.source c) := by simp [BFS.sources, hb']
      rw [e]
      refine ⟨l2, S2, i2, by simp [b2, hb'], ?_, by simp only [List.length_cons]; omega, ?_⟩
      · intro ht x
        rw [e2 ht x]; simp only [List.mem_cons]; tauto
      · intro ht hl
        simp only [List.length_cons] at hl
        rw [r2 ht (by omega), r1 (by omega)]

theorem Ini.obs {P : α → Prop} [DecidablePred P] {cells : List α} {cap : Nat} :
    ∀ (ps : List α) (S : α → Prop) (s : St α) (l : List α), Ini cells cap S s l → (∀ c ∈ ps, c ∈ cells) →
    ps.Nodup → (∀ c ∈ ps, ¬ S c) →
    ∃ l', Ini cells cap (fun x => S x ∨ (x ∈ ps ∧ P x)) (ps.foldl (fun s c => if P c then s.source c else s) s) l' ∧
      l'.length + unl cells (ps.foldl (fun s c => if P c then s.source c else s) s).dist ≤ l.length + unl cells s.dist ∧
      (l.length + unl cells s.dist < cap → (ps.foldl (fun s c => if P c then s.source c else s) s).rej = s.rej) := by
  intro ps
  induction ps with
  | nil => intro S s l i _ _ _; exact ⟨l, by simpa using i, Nat.le_refl _, fun _ => rfl⟩
  | cons c ps ih =>
    intro S s l i hp hnd hS
    have hnd' := List.nodup_cons.mp hnd
    by_cases hP : P c
    · obtain ⟨l1, i1, _, n1, r1⟩ := i.source (hp c (by simp))
      have n1' := n1 (hS c (by simp))
      obtain ⟨l2, i2, n2, r2⟩ := ih _ _ _ i1 (fun x hx => hp x (by simp [hx])) hnd'.2 (by
        rintro x hx (rfl | h)
        · exact hnd'.1 hx
        · exact hS x (by simp [hx]) h)
      simp only [List.foldl_cons, hP, if_true]
      refine ⟨l2, ?_, by omega, ?_⟩
      · have : (fun x => (x = c ∨ S x) ∨ x ∈ ps ∧ P x) = (fun x => S x ∨ x ∈ c :: ps ∧ P x) := by
          funext x
          apply propext
          simp only [List.mem_cons]
          constructor
          · rintro ((rfl | h) | h)
            · exact Or.inr ⟨Or.inl rfl, hP⟩
            · exact Or.inl h
            · exact Or.inr ⟨Or.inr h.1, h.2⟩
          · rintro (h | ⟨rfl | h, h'⟩)
            · exact Or.inl (Or.inr h)
            · exact Or.inl (Or.inl rfl)
            · exact Or.inr ⟨h, h'⟩
        rw [← this]; exact i2
      · intro hl
        have hu : 1 ≤ unl cells s.dist := by
          have := unl_set_lt cells s.dist c (v := 0) (by omega) (hp c (by simp)) (by
            rcases i.dst c (hp c (by simp)) with h | h
            · exact absurd h.1 (hS c (by simp))
            · omega)
          omega
        rw [r2 (by omega), r1 (by omega)]
    · obtain ⟨l2, i2, n2, r2⟩ := ih _ _ _ i (fun x hx => hp x (by simp [hx])) hnd'.2 (fun x hx => hS x (by simp [hx]))
      simp only [List.foldl_cons, hP, if_false]
      refine ⟨l2, ?_, n2, r2⟩
      have : (fun x => S x ∨ x ∈ ps ∧ P x) = (fun x => S x ∨ x ∈ c :: ps ∧ P x) := by
        funext x
        apply propext
        simp only [List.mem_cons]
        constructor
        · rintro (h | h)
          · exact Or.inl h
          · exact Or.inr ⟨Or.inr h.1, h.2⟩
        · rintro (h | ⟨rfl | h, h'⟩)
          · exact Or.inl h
          · exact absurd h' hP
          · exact Or.inr ⟨h, h'⟩
      rw [← this]; exact i2

/-- everything about one finished computation -/
theorem finish_generic {nb : α → List α} {free : α → Bool} {cells : List α} {cap : Nat} {S : α → Prop} {s : St α} {l : List α}
    (hnb : ∀ c ∈ cells, ∀ d ∈ nb c, d ∈ cells) (i : Ini cells cap S s l) {fuel : Nat}
    (hf : l.length + unl cells s.dist ≤ fuel) :
    ∃ s', computeDistances nb free fuel s = some s' ∧ s'.q.size = cap ∧
      (∀ c ∈ cells, s'.dist c = -1 ∨ ∃ n : Nat, s'.dist c = n ∧ Steps (fun a b => b ∈ nb a) (fun c => free c = true) S c n) ∧
      (s'.rej = false → ∀ c ∈ cells, IsDist (fun a b => b ∈ nb a) (fun c => free c = true) S c (s'.dist c)) ∧
      (∀ c, S c → s'.dist c = 0) ∧
      (l.length + unl cells s.dist ≤ cap → s'.rej = s.rej) := by
  obtain ⟨g, cl, hs⟩ := i.good (nb := nb) (free := free)
  obtain ⟨s', h1, h2, h3, h4, h5⟩ := compute_good hnb fuel s l g cl hs hf
  refine ⟨s', h1, h2.rel.size, ?_, ?_, ?_, h4⟩
  · intro c hc
    rcases h2.lab c hc with h | h
    · exact Or.inl h
    · exact Or.inr ⟨(s'.dist c).toNat, by omega, h2.sound c hc h⟩
  · intro hr c hc
    exact exact_of_good hnb (fun e he => ⟨i.sub e he, h5 e (i.sub e he) he⟩) h2 h3 hr hc
  · intro c hc
    exact h5 c (i.sub c hc) hc

end generic

theorem Steps.congr {α : Type} {adj adj' : α → α → Prop} {free free' src src' : α → Prop} {c : α} {n : Nat} (D : α → Prop)
    (hD : ∀ c, src c → D c) (hD' : ∀ c d, D c → adj c d → D d)
    (ha : ∀ c d, D c → adj c d → adj' c d) (hf : ∀ c, D c → free c → free' c) (hs : ∀ c, src c → src' c)
    (h : Steps adj free src c n) : D c ∧ Steps adj' free' src' c n := by
  induction h with
  | source h => exact ⟨hD _ h, Steps.source (hs _ h)⟩
  | move _ h1 h2 ih => exact ⟨hD' _ _ ih.1 h1, Steps.move ih.2 (ha _ _ ih.1 h1) (hf _ (hD' _ _ ih.1 h1) h2)⟩

/-! ### 2D geometry -/

theorem inB2_iff {sx sy : Int} {c : Int × Int} : inB2 sx sy c = true ↔ In2 sx sy c := by
  simp only [inB2, In2]
  simp
  omega

theorem mem_acts2 {a : Int × Int} : a ∈ acts2 ↔ a ≠ (0, 0) ∧ |a.1| ≤ 1 ∧ |a.2| ≤ 1 := by
  obtain ⟨x, y⟩ := a
  constructor
  · intro h
    have : ∀ a ∈ acts2, a ≠ (0, 0) ∧ |a.1| ≤ 1 ∧ |a.2| ≤ 1 := by decide
    exact this _ h
  · rintro ⟨h, hx, hy⟩
    simp only [abs_le] at hx hy
    have h1 : x = -1 ∨ x = 0 ∨ x = 1 := by omega
    have h2 : y = -1 ∨ y = 0 ∨ y = 1 := by omega
    rcases h1 with rfl | rfl | rfl <;> rcases h2 with rfl | rfl | rfl <;> revert h <;> decide

theorem mem_nb2 {sx sy : Int} {c d : Int × Int} (hc : In2 sx sy c) : d ∈ nb2 sx sy c ↔ Adj2 sx sy c d := by
  have hm : (d ∈ acts2.map fun a => (c.1 + a.1, c.2 + a.2)) ↔ (c ≠ d ∧ |c.1 - d.1| ≤ 1 ∧ |c.2 - d.2| ≤ 1) := by
    rw [List.mem_map]
    constructor
    · rintro ⟨a, ha, rfl⟩
      obtain ⟨h1, h2, h3⟩ := mem_acts2.mp ha
      refine ⟨?_, ?_, ?_⟩
      · intro e
        apply h1
        rw [Prod.ext_iff] at e ⊢
        simp only at e ⊢
        omega
      · simpa [abs_sub_comm] using h2
      · simpa [abs_sub_comm] using h3
    · rintro ⟨h1, h2, h3⟩
      refine ⟨(d.1 - c.1, d.2 - c.2), mem_acts2.mpr ⟨?_, ?_, ?_⟩, by simp⟩
      · intro e
        apply h1
        rw [Prod.ext_iff] at e ⊢
        simp only at e ⊢
        omega
      · rw [abs_sub_comm]; exact h2
      · rw [abs_sub_comm]; exact h3
  unfold nb2
  split_ifs with h
  · rw [List.mem_filter, hm, inB2_iff]
    unfold Adj2
    tauto
  · rw [hm]
    unfold Adj2
    constructor
    · rintro ⟨h1, h2, h3⟩
      refine ⟨hc, ?_, h1, h2, h3⟩
      unfold In2 at *
      simp only [abs_le] at h2 h3
      omega
    · tauto

theorem mem_cells2 {sx sy : Nat} {c : Int × Int} : c ∈ cells2 sx sy ↔ In2 sx sy c := by
  obtain ⟨x, y⟩ := c
  unfold cells2 In2
  simp only [List.mem_flatMap, List.mem_map, List.mem_range, Prod.mk.injEq]
  constructor
  · rintro ⟨a, ha, b, hb, rfl, rfl⟩; omega
  · rintro ⟨h1, h2, h3, h4⟩
    exact ⟨x.toNat, by omega, y.toNat, by omega, by omega, by omega⟩

theorem nodup_cells2 (sx sy : Nat) : (cells2 sx sy).Nodup := by
  unfold cells2
  rw [List.nodup_flatMap]
  constructor
  · intro x _
    refine List.Nodup.map_on ?_ List.nodup_range
    intro a _ b _ h
    simp only [Prod.mk.injEq] at h
    omega
  · refine List.Pairwise.imp ?_ (List.nodup_range (n := sx))
    intro a b hab
    simp only [Function.onFun, List.disjoint_left]
    intro c hc hc'
    obtain ⟨y, _, rfl⟩ := List.mem_map.mp hc
    obtain ⟨y', _, h⟩ := List.mem_map.mp hc'
    simp only [Prod.mk.injEq] at h
    omega

theorem length_cells2 (sx sy : Nat) : (cells2 sx sy).length = sx * sy := by
  unfold cells2
  simp [List.length_flatMap, List.map_const']

theorem nb2_closed {sx sy : Nat} : ∀ c ∈ cells2 sx sy, ∀ d ∈ nb2 sx sy c, d ∈ cells2 sx sy := by
  intro c hc d hd
  exact mem_cells2.mpr ((mem_nb2 (mem_cells2.mp hc)).mp hd).2.1

/-! ### 3D geometry -/

theorem inB3_iff {sx sy sz : Int} {c : Cell3} : inB3 sx sy sz c = true ↔ In3 sx sy sz c := by
  simp only [inB3, In3]
  simp
  omega

theorem mem_acts3 {a : Cell3} : a ∈ acts3 ↔ a ≠ (0, 0, 0) ∧ |a.1| ≤ 1 ∧ |a.2.1| ≤ 1 ∧ |a.2.2| ≤ 1 := by
  obtain ⟨x, y, z⟩ := a
  constructor
  · intro h
    have : ∀ a ∈ acts3, a ≠ (0, 0, 0) ∧ |a.1| ≤ 1 ∧ |a.2.1| ≤ 1 ∧ |a.2.2| ≤ 1 := by decide
    exact this _ h
  · rintro ⟨h, hx, hy, hz⟩
    simp only [abs_le] at hx hy hz
    have h1 : x = -1 ∨ x = 0 ∨ x = 1 := by omega
    have h2 : y = -1 ∨ y = 0 ∨ y = 1 := by omega
    have h3 : z = -1 ∨ z = 0 ∨ z = 1 := by omega
    rcases h1 with rfl | rfl | rfl <;> rcases h2 with rfl | rfl | rfl <;> rcases h3 with rfl | rfl | rfl <;> revert h <;> decide

theorem mem_nb3 {sx sy sz : Int} {c d : Cell3} (hc : In3 sx sy sz c) : d ∈ nb3 sx sy sz c ↔ Adj3 sx sy sz c d := by
  have hm : (d ∈ acts3.map fun a => (c.1 + a.1, c.2.1 + a.2.1, c.2.2 + a.2.2)) ↔
      (c ≠ d ∧ |c.1 - d.1| ≤ 1 ∧ |c.2.1 - d.2.1| ≤ 1 ∧ |c.2.2 - d.2.2| ≤ 1) := by
    rw [List.mem_map]
    constructor
    · rintro ⟨a, ha, rfl⟩
      obtain ⟨h1, h2, h3, h4⟩ := mem_acts3.mp ha
      refine ⟨?_, ?_, ?_, ?_⟩
      · intro e
        apply h1
        rw [Prod.ext_iff, Prod.ext_iff] at e ⊢
        simp only at e ⊢
        omega
      · simpa [abs_sub_comm] using h2
      · simpa [abs_sub_comm] using h3
      · simpa [abs_sub_comm] using h4
    · rintro ⟨h1, h2, h3, h4⟩
      refine ⟨(d.1 - c.1, d.2.1 - c.2.1, d.2.2 - c.2.2), mem_acts3.mpr ⟨?_, ?_, ?_, ?_⟩, by simp⟩
      · intro e
        apply h1
        rw [Prod.ext_iff, Prod.ext_iff] at e ⊢
        simp only at e ⊢
        omega
      · rw [abs_sub_comm]; exact h2
      · rw [abs_sub_comm]; exact h3
      · rw [abs_sub_comm]; exact h4
  unfold nb3
  split_ifs with h
  · rw [List.mem_filter, hm, inB3_iff]
    unfold Adj3
    tauto
  · rw [hm]
    unfold Adj3
    constructor
    · rintro ⟨h1, h2, h3, h4⟩
      refine ⟨hc, ?_, h1, h2, h3, h4⟩
      unfold In3 at *
      simp only [abs_le] at h2 h3 h4
      omega
    · tauto

theorem mem_cells3 {sx sy sz : Nat} {c : Cell3} : c ∈ cells3 sx sy sz ↔ In3 sx sy sz c := by
  obtain ⟨x, y, z⟩ := c
  unfold cells3 In3
  simp only [List.mem_flatMap, List.mem_map, List.mem_range, Prod.mk.injEq]
  constructor
  · rintro ⟨a, ha, b, hb, e, he, rfl, rfl, rfl⟩; omega
  · rintro ⟨h1, h2, h3, h4, h5, h6⟩
    exact ⟨x.toNat, by omega, y.toNat, by omega, z.toNat, by omega, by omega, by omega, by omega⟩

theorem nodup_cells3 (sx sy sz : Nat) : (cells3 sx sy sz).Nodup := by
  unfold cells3
  rw [List.nodup_flatMap]
  constructor
  · intro x _
    rw [List.nodup_flatMap]
    constructor
    · intro y _
      refine List.Nodup.map_on ?_ List.nodup_range
      intro a _ b _ h
      simp only [Prod.mk.injEq] at h
      omega
    · refine List.Pairwise.imp ?_ (List.nodup_range (n := sy))
      intro a b hab
      simp only [Function.onFun, List.disjoint_left]
      intro c hc hc'
      obtain ⟨y, _, rfl⟩ := List.mem_map.mp hc
      obtain ⟨y', _, h⟩ := List.mem_map.mp hc'
      simp only [Prod.mk.injEq] at h
      omega
  · refine List.Pairwise.imp ?_ (List.nodup_range (n := sx))
    intro a b hab
    simp only [Function.onFun, List.disjoint_left]
    intro c hc hc'
    obtain ⟨y, _, hy⟩ := List.mem_flatMap.mp hc
    obtain ⟨y', _, hy'⟩ := List.mem_flatMap.mp hc'
    obtain ⟨z, _, rfl⟩ := List.mem_map.mp hy
    obtain ⟨z', _, h⟩ := List.mem_map.mp hy'
    simp only [Prod.mk.injEq] at h
    omega

theorem length_cells3 (sx sy sz : Nat) : (cells3 sx sy sz).length = sx * sy * sz := by
  unfold cells3
  simp [List.length_flatMap, Nat.mul_assoc, List.map_const']

theorem nb3_closed {sx sy sz : Nat} : ∀ c ∈ cells3 sx sy sz, ∀ d ∈ nb3 sx sy sz c, d ∈ cells3 sx sy sz := by
  intro c hc d hd
  exact mem_cells3.mpr ((mem_nb3 (mem_cells3.mp hc)).mp hd).2.1

end BFS
end Sbpl
