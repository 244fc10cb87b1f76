import Verif.Spec.Fifo
/-! # The ring buffer refines the bounded queue -/

namespace Sbpl
namespace Fifo
variable {α : Type}

/-- position of the `i`-th oldest entry -/
def pos (f : Fifo α) (i : Nat) : Nat :=
  if f.tail + i < f.size then f.tail + i else f.tail + i - f.size

/-- the ring buffer holds `l`, oldest first -/
structure Rel (n : Nat) (f : Fifo α) (l : List α) : Prop where
  size : f.size = n
  npos : 1 ≤ n
  tl : f.tail < n
  hd : f.head = f.pos l.length
  len : l.length < n
  cont : ∀ i (h : i < l.length), f.q (f.pos i) = l[i]

theorem Rel.mk0 (n : Nat) (hn : 1 ≤ n) (d : α) : Rel n (mk0 n d) [] :=
  ⟨rfl, hn, hn, by simp [pos, Fifo.mk0], hn, by intro i h; simp at h⟩

theorem Rel.full {n : Nat} {f : Fifo α} {l : List α} (r : Rel n f l) :
    f.isFull = decide (l.length = n - 1) := by
  obtain ⟨size, np, tl, hd, len, _⟩ := r
  simp only [pos, size] at hd
  have : (f.tail = f.head + 1 ∨ (f.tail = 0 ∧ f.head + 1 = n)) ↔ l.length = n - 1 := by
    split at hd <;> omega
  simp only [isFull, size]
  rw [Bool.eq_iff_iff]
  simpa using this

theorem Rel.insert {n : Nat} {f : Fifo α} {l : List α} (r : Rel n f l) (v : α)
    (nf : l.length ≠ n - 1) : (f.insert v).2 = true ∧ Rel n (f.insert v).1 (l ++ [v]) := by
  have hf : f.isFull = false := by rw [r.full]; simp [nf]
  obtain ⟨size, np, tl, hd, len, cont⟩ := r
  simp only [Fifo.insert, hf, Bool.false_eq_true, if_false, true_and]
  refine ⟨size, np, tl, ?_, ?_, ?_⟩
  · simp only [pos, size, List.length_append, List.length_singleton] at hd ⊢
    split at hd <;> split <;> split <;> omega
  · simp only [List.length_append, List.length_singleton]; omega
  · intro i hi
    simp only [List.length_append, List.length_singleton] at hi
    by_cases e : i = l.length
    · subst e
      have : ({ f with q := upd f.q f.head v, head := if f.head + 1 = f.size then 0 else f.head + 1 }
        : Fifo α).pos l.length = f.head := by rw [hd]; rfl
      simp only [this, upd_same]
      simp
    · have hi' : i < l.length := by omega
      have ne : f.pos i ≠ f.head := by
        simp only [pos, size] at hd ⊢
        split at hd <;> split <;> omega
      show upd f.q f.head v (f.pos i) = _
      rw [upd_other _ _ ne, cont i hi', List.getElem_append_left hi']

theorem Rel.remove {n : Nat} {f : Fifo α} {x : α} {l : List α} (r : Rel n f (x :: l)) :
    f.remove.2 = some x ∧ Rel n f.remove.1 l := by
  obtain ⟨size, np, tl, hd, len, cont⟩ := r
  simp only [List.length_cons] at len hd
  have ne : ¬ f.head = f.tail := by
    simp only [pos, size] at hd
    split at hd <;> omega
  have c0 := cont 0 (by simp)
  have p0 : f.pos 0 = f.tail := by simp [pos, size]; omega
  rw [p0] at c0
  simp only [Fifo.remove, ne, if_false]
  refine ⟨by simpa using c0, size, np, ?_, ?_, by omega, ?_⟩
  · simp only [size]; split <;> omega
  · simp only [pos, size] at hd ⊢
    split at hd <;> split <;> split <;> omega
  · intro i hi
    have := cont (i + 1) (by simpa using hi)
    simp only [List.getElem_cons_succ] at this
    rw [← this]
    simp only [pos, size]
    congr 1
    split <;> split <;> split <;> omega

theorem Rel.step {n : Nat} {f : Fifo α} {l : List α} (r : Rel n f l) (op : QOp α) :
    (f.step op).2 = (FifoSpec.step (n - 1) l op).2 ∧
    Rel n (f.step op).1 (FifoSpec.step (n - 1) l op).1 := by
  cases op with
  | insert v =>
    simp only [Fifo.step, FifoSpec.step]
    by_cases e : l.length = n - 1
    · have hf : f.isFull = true := by rw [r.full]; simp [e]
      simp only [Fifo.insert, hf, if_true, e]
      exact ⟨trivial, r⟩
    · simp only [e, if_false]
      obtain ⟨a, b⟩ := r.insert v e
      exact ⟨by rw [a], b⟩
  | remove =>
    cases l with
    | nil =>
      have : f.head = f.tail := by
        have := r.hd; have := r.tl; have := r.size
        simp only [pos, List.length_nil] at *
        split at * <;> omega
      simp only [Fifo.step, FifoSpec.step, Fifo.remove, this, if_true]
      exact ⟨trivial, r⟩
    | cons x l =>
      obtain ⟨a, b⟩ := r.remove
      exact ⟨by simp only [Fifo.step, FifoSpec.step, a], b⟩
  | isEmpty =>
    refine ⟨?_, r⟩
    simp only [Fifo.step, FifoSpec.step, Fifo.isEmpty]
    have := r.hd; have := r.tl; have := r.size; have := r.len
    cases l with
    | nil =>
      simp only [pos, List.length_nil] at *
      have : f.head = f.tail := by split at * <;> omega
      simp [this]
    | cons x l =>
      simp only [pos, List.length_cons] at *
      have : ¬ f.head = f.tail := by split at * <;> omega
      simp [this]
  | clear =>
    refine ⟨rfl, r.size, r.npos, ?_, ?_, ?_, ?_⟩
    · have := r.npos; simp only [Fifo.step, Fifo.clear]; omega
    · have := r.npos; have := r.size
      simp [Fifo.step, Fifo.clear, pos, FifoSpec.step]
    · have := r.npos; simp only [FifoSpec.step, List.length_nil]; omega
    · intro i h; simp [FifoSpec.step] at h

theorem Rel.run {n : Nat} (ops : List (QOp α)) : ∀ {f : Fifo α} {l : List α}, Rel n f l →
    (f.run ops).2 = (FifoSpec.run (n - 1) l ops).2 ∧
    Rel n (f.run ops).1 (FifoSpec.run (n - 1) l ops).1 := by
  induction ops with
  | nil => intro f l r; exact ⟨rfl, r⟩
  | cons op ops ih =>
    intro f l r
    obtain ⟨a, b⟩ := r.step op
    obtain ⟨c, d⟩ := ih b
    exact ⟨by simp only [Fifo.run, FifoSpec.run, a, c], d⟩

theorem Rel.inRange {n : Nat} {f : Fifo α} {l : List α} (r : Rel n f l) : f.head < n ∧ f.tail < n := by
  obtain ⟨size, np, tl, hd, len, _⟩ := r
  simp only [pos, size] at hd
  split at hd <;> omega

end Fifo
end Sbpl
