import Verif.Model.Footprint
import Verif.Spec.Footprint
import Verif.Props.BFS
import Mathlib.Tactic.SplitIfs
import Mathlib.Tactic.Linarith
import Mathlib.Tactic.Ring
/-! # Proofs about footprints -/

namespace Sbpl.Fp
open FpSpec

theorem _root_.Sbpl.FpSpec.Joined.mono {P Q : Cell → Prop} (h : ∀ c, P c → Q c) {p q : Cell} (j : Joined P p q) : Joined Q p q := by
  induction j with
  | refl hp => exact .refl (h _ hp)
  | step hp hs _ ih => exact .step (h _ hp) hs ih

theorem _root_.Sbpl.FpSpec.Joined.trans {P : Cell → Prop} {p q r : Cell} (j : Joined P p q) (k : Joined P q r) : Joined P p r := by
  induction j with
  | refl _ => exact k
  | step hp hs _ ih => exact .step hp hs (ih k)

theorem _root_.Sbpl.FpSpec.Side.symm {p q : Cell} (h : Side p q) : Side q p := by unfold Side at *; omega

theorem _root_.Sbpl.FpSpec.Joined.symm {P : Cell → Prop} {p q : Cell} (j : Joined P p q) : Joined P q p := by
  induction j with
  | refl hp => exact .refl hp
  | @step p q r hp hs jj ih =>
    have hq : P q := by cases jj with | refl h => exact h | step h _ _ => exact h
    exact ih.trans (.step hq hs.symm (.refl hp))

theorem _root_.Sbpl.FpSpec.Joined.map {P Q : Cell → Prop} {f : Cell → Cell} (hf : ∀ c, P c → Q (f c)) (hs : ∀ a b, Side a b → Side (f a) (f b)) {p q : Cell} (j : Joined P p q) : Joined Q (f p) (f q) := by
  induction j with
  | refl hp => exact .refl (hf _ hp)
  | step hp hside _ ih => exact .step (hf _ hp) (hs _ _ hside) ih

/-! ## Lines -/

/-- the cells of a line from (x0, y0), `k` to the right and `j` in direction `s` -/
def OnLine (x0 y0 s dx dy : Int) (c : Cell) : Prop :=
  ∃ k j : Int, 0 ≤ k ∧ k ≤ dx ∧ 0 ≤ j ∧ j ≤ dy ∧ c = (x0 + k, y0 + s * j) ∧ |dx * j - dy * k| ≤ dx

theorem loop_line {x0 y0 s dx dy : Int} (hdy : 0 ≤ dy) (hle : dy ≤ dx) (hs : s = 1 ∨ s = -1) : ∀ (n : Nat) (k j e : Int), 0 ≤ k → k + n = dx → 0 ≤ j → j ≤ dy →
    e = dx / 2 + dx * j - dy * k → 0 ≤ e → (dx = 0 ∨ e < dx) →
    Joined (fun c => c ∈ lineLoop (x0 + dx) dx dy s (n + 1) (x0 + k) (y0 + s * j) e) (x0 + k, y0 + s * j) (x0 + dx, y0 + s * dy) ∧
    ∀ c ∈ lineLoop (x0 + dx) dx dy s (n + 1) (x0 + k) (y0 + s * j) e, OnLine x0 y0 s dx dy c := by
  intro n
  induction n with
  | zero =>
    intro k j e k0 kn j0 j1 he e0 e1
    have hk : k = dx := by omega
    subst hk
    have hj : j = dy := by
      rcases e1 with h | h
      · omega
      · by_contra hne
        have : j + 1 ≤ dy := by omega
        nlinarith [Int.ediv_mul_le k (show (2 : Int) ≠ 0 by decide)]
    subst hj
    unfold lineLoop
    dsimp only
    rw [if_neg (by simp)]
    unfold lineLoop
    constructor
    · exact .refl (by simp)
    · intro c hc
      simp only [List.mem_singleton] at hc
      subst hc
      refine ⟨k, j, k0, Int.le_refl _, j0, Int.le_refl _, rfl, ?_⟩
      rw [Int.mul_comm, Int.sub_self]; simpa using k0
  | succ n ih =>
    intro k j e k0 kn j0 j1 he e0 e1
    have hdx : 0 < dx := by push_cast at kn; omega
    have e1 : e < dx := by rcases e1 with h | h; omega; exact h
    have hh0 : 0 ≤ dx / 2 := by omega
    have hh1 : dx / 2 * 2 ≤ dx := by omega
    have hh2 : dx ≤ dx / 2 * 2 + 1 := by omega
    have dev : dx * j - dy * k = e - dx / 2 := by rw [he]; ring
    have here : OnLine x0 y0 s dx dy (x0 + k, y0 + s * j) := by
      refine ⟨k, j, k0, by omega, j0, j1, rfl, ?_⟩
      rw [dev, abs_le]; omega
    unfold lineLoop
    dsimp only
    have hx : ¬ x0 + k = x0 + dx := by omega
    by_cases hc : e - dy < 0
    · rw [if_pos ⟨hc, hx⟩]
      have c1 : x0 + k + 1 = x0 + (k + 1) := by ring
      have c2 : y0 + s * j + s = y0 + s * (j + 1) := by ring
      have hj' : j + 1 ≤ dy := by
        by_contra hne
        have hjd : j = dy := by omega
        subst hjd
        have h3 : 0 ≤ j * (dx - k - 1) := mul_nonneg (by omega) (by push_cast at kn; omega)
        nlinarith
      have ne : e - dy + dx = dx / 2 + dx * (j + 1) - dy * (k + 1) := by rw [he]; ring
      obtain ⟨i1, i2⟩ := ih (k + 1) (j + 1) (e - dy + dx) (by omega) (by push_cast at kn; omega) (by omega) hj' ne (by omega) (.inr (by omega))
      rw [c1, c2]
      have dev1 : dx * (j + 1) - dy * k = e - dx / 2 + dx := by rw [he]; ring
      have dev2 : dx * j - dy * (k + 1) = e - dx / 2 - dy := by rw [he]; ring
      refine ⟨?_, ?_⟩
      · refine .step (q := if e < -(e - dy) then (x0 + k, y0 + s * (j + 1)) else (x0 + (k + 1), y0 + s * j)) (by simp) ?_ ?_
        · unfold Side
          split_ifs
          · left; refine ⟨rfl, ?_⟩; dsimp only; rcases hs with rfl | rfl <;> omega
          · right; refine ⟨rfl, ?_⟩; dsimp only; omega
        · refine .step (q := (x0 + (k + 1), y0 + s * (j + 1))) (by simp) ?_ (i1.mono (fun c hc => by simp [hc]))
          unfold Side
          split_ifs
          · right; refine ⟨rfl, ?_⟩; dsimp only; omega
          · left; refine ⟨rfl, ?_⟩; dsimp only; rcases hs with rfl | rfl <;> omega
      · intro c hcm
        rcases List.mem_cons.mp hcm with rfl | hcm
        · exact here
        · rcases List.mem_cons.mp hcm with rfl | hcm
          · split_ifs with hlt
            · refine ⟨k, j + 1, k0, by omega, by omega, hj', rfl, ?_⟩
              rw [dev1, abs_le]; omega
            · refine ⟨k + 1, j, by omega, by push_cast at kn; omega, j0, j1, rfl, ?_⟩
              rw [dev2, abs_le]; omega
          · exact i2 c hcm
    · rw [if_neg (by omega)]
      have c1 : x0 + k + 1 = x0 + (k + 1) := by ring
      have ne : e - dy = dx / 2 + dx * j - dy * (k + 1) := by rw [he]; ring
      obtain ⟨i1, i2⟩ := ih (k + 1) j (e - dy) (by omega) (by push_cast at kn; omega) j0 j1 ne (by omega) (.inr (by omega))
      rw [c1]
      refine ⟨.step (q := (x0 + (k + 1), y0 + s * j)) (by simp) ?_ (i1.mono (fun c hc => by simp [hc])), ?_⟩
      · unfold Side; right; refine ⟨rfl, ?_⟩; dsimp only; omega
      · intro c hcm
        rcases List.mem_cons.mp hcm with rfl | hcm
        · exact here
        · exact i2 c hcm

theorem onLine_near {x0 y0 x1 y1 : Int} (hx : x0 ≤ x1) {s : Int} (hs : y1 = y0 + s * |y1 - y0|) (hs' : s = 1 ∨ s = -1) (hle : |y1 - y0| ≤ x1 - x0) {c : Cell}
    (h : OnLine x0 y0 s (x1 - x0) |y1 - y0| c) : Near (x0, y0) (x1, y1) c := by
  obtain ⟨k, j, k0, k1, j0, j1, rfl, hd⟩ := h
  unfold Near
  dsimp only
  have hy : y1 - y0 = s * |y1 - y0| := by omega
  generalize hD : |y1 - y0| = D at *
  have e1 : (x1 - x0) * (y0 + s * j - y0) - (y1 - y0) * (x0 + k - x0) = s * ((x1 - x0) * j - D * k) := by rw [hy]; ring
  have e2 : |(x1 - x0)| = x1 - x0 := abs_of_nonneg (by omega)
  refine ⟨by omega, by omega, ?_, ?_, ?_⟩
  · rcases hs' with rfl | rfl <;> omega
  · rcases hs' with rfl | rfl <;> omega
  · rw [e1, e2, abs_mul]
    have : |s| = 1 := by rcases hs' with rfl | rfl <;> rfl
    rw [this, one_mul]
    omega

theorem near_symm {p q c : Cell} (h : Near p q c) : Near q p c := by
  obtain ⟨h1, h2, h3, h4, h5⟩ := h
  refine ⟨by rw [min_comm]; exact h1, by rw [max_comm]; exact h2, by rw [min_comm]; exact h3, by rw [max_comm]; exact h4, ?_⟩
  have e : (p.1 - q.1) * (c.2 - q.2) - (p.2 - q.2) * (c.1 - q.1) = -((q.1 - p.1) * (c.2 - p.2) - (q.2 - p.2) * (c.1 - p.1)) := by ring
  rw [e, abs_neg, abs_sub_comm p.1, abs_sub_comm p.2]
  exact h5

theorem near_swap {p q c : Cell} (h : Near p q c) : Near (p.2, p.1) (q.2, q.1) (c.2, c.1) := by
  obtain ⟨h1, h2, h3, h4, h5⟩ := h
  refine ⟨h3, h4, h1, h2, ?_⟩
  dsimp only
  have e : (q.2 - p.2) * (c.1 - p.1) - (q.1 - p.1) * (c.2 - p.2) = -((q.1 - p.1) * (c.2 - p.2) - (q.2 - p.2) * (c.1 - p.1)) := by ring
  rw [e, abs_neg, max_comm]
  exact h5

theorem lineLR_aux {x0 y0 x1 y1 : Int} (hx : x0 ≤ x1) (hle : |y1 - y0| ≤ x1 - x0) :
    let l := lineLoop x1 (x1 - x0) |y1 - y0| (if y0 < y1 then 1 else -1) (x1 - x0 + 1).toNat x0 y0 ((x1 - x0) / 2)
    Joined (fun c => c ∈ l) (x0, y0) (x1, y1) ∧ ∀ c ∈ l, Near (x0, y0) (x1, y1) c := by
  have hs' : (if y0 < y1 then (1 : Int) else -1) = 1 ∨ (if y0 < y1 then (1 : Int) else -1) = -1 := by split_ifs <;> simp
  have hs : y1 = y0 + (if y0 < y1 then (1 : Int) else -1) * |y1 - y0| := by
    split_ifs with h
    · rw [abs_of_pos (by omega)]; ring
    · rw [abs_of_nonpos (by omega)]; ring
  have hn : (x1 - x0 + 1).toNat = (x1 - x0).toNat + 1 := by omega
  generalize (if y0 < y1 then (1 : Int) else -1) = s at *
  obtain ⟨h1, h2⟩ := loop_line (x0 := x0) (y0 := y0) (s := s) (dx := x1 - x0) (dy := |y1 - y0|) (abs_nonneg _) hle hs' (x1 - x0).toNat 0 0 ((x1 - x0) / 2)
    (by omega) (by omega) (by omega) (abs_nonneg _) (by ring) (by omega) (by omega)
  have c1 : x0 + (x1 - x0) = x1 := by ring
  simp only [c1, Int.add_zero, Int.mul_zero, ← hs] at h1 h2
  rw [hn]
  exact ⟨h1, fun c hc => onLine_near hx hs hs' hle (h2 c hc)⟩

theorem lineLR_ok {x0 y0 x1 y1 : Int} (hle : |y1 - y0| ≤ |x1 - x0|) :
    Joined (fun c => c ∈ lineLR x0 y0 x1 y1) (x0, y0) (x1, y1) ∧ ∀ c ∈ lineLR x0 y0 x1 y1, Near (x0, y0) (x1, y1) c := by
  unfold lineLR
  by_cases hx : x0 > x1
  · rw [if_pos hx]
    dsimp only
    have ha : |x1 - x0| = x0 - x1 := by rw [abs_of_neg (by omega)]; ring
    obtain ⟨h1, h2⟩ := lineLR_aux (x0 := x1) (y0 := y1) (x1 := x0) (y1 := y0) (by omega) (by rw [abs_sub_comm]; omega)
    exact ⟨h1.symm, fun c hc => near_symm (h2 c hc)⟩
  · rw [if_neg hx]
    have ha : |x1 - x0| = x1 - x0 := abs_of_nonneg (by omega)
    dsimp only
    exact lineLR_aux (by omega) (by omega)

theorem plotLine_ok (p q : Cell) : Joined (fun c => c ∈ plotLine p q) p q ∧ ∀ c ∈ plotLine p q, Near p q c := by
  unfold plotLine
  split_ifs with h
  · obtain ⟨h1, h2⟩ := lineLR_ok (x0 := p.2) (y0 := p.1) (x1 := q.2) (y1 := q.1) (by omega)
    constructor
    · exact h1.map (f := fun c => (c.2, c.1)) (fun c hc => List.mem_map.mpr ⟨c, hc, rfl⟩) (fun a b hab => by unfold Side at *; dsimp only; omega)
    · intro c hc
      obtain ⟨d, hd, rfl⟩ := List.mem_map.mp hc
      exact near_swap (h2 d hd)
  · exact lineLR_ok (by omega)

/-! ## All lines -/

theorem plotAll_mem {c : Cell} : ∀ {l : List Cell}, c ∈ plotAll l ↔ ∃ e ∈ l.zip l.tail, c ∈ plotLine e.1 e.2
  | [] => by simp [plotAll]
  | [p] => by simp [plotAll]
  | p :: q :: l => by
    rw [plotAll, List.mem_append, plotAll_mem (l := q :: l)]
    simp

theorem plotAll_joined {l : List Cell} {p q : Cell} (h : (p, q) ∈ l.zip l.tail) : Joined (fun c => c ∈ plotAll l ∧ Near p q c) p q := by
  obtain ⟨h1, h2⟩ := plotLine_ok p q
  exact h1.mono (fun c hc => ⟨plotAll_mem.mpr ⟨_, h, hc⟩, h2 c hc⟩)

/-! ## The box -/

theorem bounds_aux (ps : List Cell) : ∀ (b : Box),
    let r := ps.foldl (fun b p => (⟨if p.1 < b.minx then p.1 else b.minx, if p.1 > b.maxx then p.1 else b.maxx, if p.2 < b.miny then p.2 else b.miny, if p.2 > b.maxy then p.2 else b.maxy⟩ : Box)) b
    (r.minx ≤ b.minx ∧ (∀ p ∈ ps, r.minx ≤ p.1) ∧ (r.minx = b.minx ∨ ∃ p ∈ ps, p.1 = r.minx)) ∧
    (b.maxx ≤ r.maxx ∧ (∀ p ∈ ps, p.1 ≤ r.maxx) ∧ (r.maxx = b.maxx ∨ ∃ p ∈ ps, p.1 = r.maxx)) ∧
    (r.miny ≤ b.miny ∧ (∀ p ∈ ps, r.miny ≤ p.2) ∧ (r.miny = b.miny ∨ ∃ p ∈ ps, p.2 = r.miny)) ∧
    (b.maxy ≤ r.maxy ∧ (∀ p ∈ ps, p.2 ≤ r.maxy) ∧ (r.maxy = b.maxy ∨ ∃ p ∈ ps, p.2 = r.maxy)) := by
  induction ps with
  | nil => intro b; simp
  | cons p ps ih =>
    intro b
    rw [List.foldl_cons]
    obtain ⟨⟨a1, a2, a3⟩, ⟨b1, b2, b3⟩, ⟨c1, c2, c3⟩, ⟨d1, d2, d3⟩⟩ := ih ⟨if p.1 < b.minx then p.1 else b.minx, if p.1 > b.maxx then p.1 else b.maxx, if p.2 < b.miny then p.2 else b.miny, if p.2 > b.maxy then p.2 else b.maxy⟩
    dsimp only at *
    generalize List.foldl _ _ ps = r at *
    refine ⟨⟨?_, ?_, ?_⟩, ⟨?_, ?_, ?_⟩, ⟨?_, ?_, ?_⟩, ⟨?_, ?_, ?_⟩⟩
    · split_ifs at a1 <;> omega
    · intro q hq; rcases List.mem_cons.mp hq with rfl | hq
      · split_ifs at a1 <;> omega
      · exact a2 q hq
    · rcases a3 with h | ⟨q, hq, h⟩
      · split_ifs at h
        · right; exact ⟨p, by simp, h.symm⟩
        · left; exact h
      · right; exact ⟨q, by simp [hq], h⟩
    · split_ifs at b1 <;> omega
    · intro q hq; rcases List.mem_cons.mp hq with rfl | hq
      · split_ifs at b1 <;> omega
      · exact b2 q hq
    · rcases b3 with h | ⟨q, hq, h⟩
      · split_ifs at h
        · right; exact ⟨p, by simp, h.symm⟩
        · left; exact h
      · right; exact ⟨q, by simp [hq], h⟩
    · split_ifs at c1 <;> omega
    · intro q hq; rcases List.mem_cons.mp hq with rfl | hq
      · split_ifs at c1 <;> omega
      · exact c2 q hq
    · rcases c3 with h | ⟨q, hq, h⟩
      · split_ifs at h
        · right; exact ⟨p, by simp, h.symm⟩
        · left; exact h
      · right; exact ⟨q, by simp [hq], h⟩
    · split_ifs at d1 <;> omega
    · intro q hq; rcases List.mem_cons.mp hq with rfl | hq
      · split_ifs at d1 <;> omega
      · exact d2 q hq
    · rcases d3 with h | ⟨q, hq, h⟩
      · split_ifs at h
        · right; exact ⟨p, by simp, h.symm⟩
        · left; exact h
      · right; exact ⟨q, by simp [hq], h⟩

/-- coordinates that the initial values of the bounding box allow -/
def Small (ps : List Cell) : Prop := ∀ p ∈ ps, |p.1| ≤ INFINITECOST ∧ |p.2| ≤ INFINITECOST

theorem bounds_box {ps : List Cell} (hne : ps ≠ []) (hs : Small ps) (c : Cell) :
    InBox ps c ↔ (bounds ps).minx ≤ c.1 ∧ c.1 ≤ (bounds ps).maxx ∧ (bounds ps).miny ≤ c.2 ∧ c.2 ≤ (bounds ps).maxy := by
  obtain ⟨⟨a1, a2, a3⟩, ⟨b1, b2, b3⟩, ⟨c1, c2, c3⟩, ⟨d1, d2, d3⟩⟩ := bounds_aux ps ⟨INFINITECOST, -INFINITECOST, INFINITECOST, -INFINITECOST⟩
  have hb : bounds ps = ps.foldl (fun b p => (⟨if p.1 < b.minx then p.1 else b.minx, if p.1 > b.maxx then p.1 else b.maxx, if p.2 < b.miny then p.2 else b.miny, if p.2 > b.maxy then p.2 else b.maxy⟩ : Box))
    ⟨INFINITECOST, -INFINITECOST, INFINITECOST, -INFINITECOST⟩ := rfl
  rw [hb]
  generalize List.foldl _ _ ps = r at *
  dsimp only at *
  obtain ⟨q, hq⟩ := List.exists_mem_of_ne_nil ps hne
  have hq' := hs q hq
  rw [abs_le, abs_le] at hq'
  have k1 := a2 q hq
  have k2 := b2 q hq
  have k3 := c2 q hq
  have k4 := d2 q hq
  have m1 : ∃ p ∈ ps, p.1 = r.minx := by
    rcases a3 with h | h
    · exact ⟨q, hq, by omega⟩
    · exact h
  have m2 : ∃ p ∈ ps, p.1 = r.maxx := by
    rcases b3 with h | h
    · exact ⟨q, hq, by omega⟩
    · exact h
  have m3 : ∃ p ∈ ps, p.2 = r.miny := by
    rcases c3 with h | h
    · exact ⟨q, hq, by omega⟩
    · exact h
  have m4 : ∃ p ∈ ps, p.2 = r.maxy := by
    rcases d3 with h | h
    · exact ⟨q, hq, by omega⟩
    · exact h
  obtain ⟨p1, n1, e1⟩ := m1
  obtain ⟨p2, n2, e2⟩ := m2
  obtain ⟨p3, n3, e3⟩ := m3
  obtain ⟨p4, n4, e4⟩ := m4
  unfold InBox
  constructor
  · rintro ⟨⟨u1, v1, w1⟩, ⟨u2, v2, w2⟩, ⟨u3, v3, w3⟩, ⟨u4, v4, w4⟩⟩
    have := a2 u1 v1
    have := b2 u2 v2
    have := c2 u3 v3
    have := d2 u4 v4
    omega
  · rintro ⟨w1, w2, w3, w4⟩
    exact ⟨⟨p1, n1, by omega⟩, ⟨p2, n2, by omega⟩, ⟨p3, n3, by omega⟩, ⟨p4, n4, by omega⟩⟩

/-! ## Filling -/

/-- shift into the grid -/
def tau (b : Box) (p : Cell) : Cell := (p.1 - b.minx + 1, p.2 - b.miny + 1)
/-- shift back -/
def sig (b : Box) (c : Cell) : Cell := (c.1 - 1 + b.minx, c.2 - 1 + b.miny)

theorem sig_tau (b : Box) (p : Cell) : sig b (tau b p) = p := by
  unfold sig tau; ext <;> dsimp only <;> omega

theorem near_shift {u v : Int} {p q c : Cell} (h : Near p q c) : Near (p.1 + u, p.2 + v) (q.1 + u, q.2 + v) (c.1 + u, c.2 + v) := by
  obtain ⟨h1, h2, h3, h4, h5⟩ := h
  refine ⟨?_, ?_, ?_, ?_, ?_⟩
  · dsimp only; omega
  · dsimp only; omega
  · dsimp only; omega
  · dsimp only; omega
  · dsimp only
    have e : (q.1 + u - (p.1 + u)) * (c.2 + v - (p.2 + v)) - (q.2 + v - (p.2 + v)) * (c.1 + u - (p.1 + u)) = (q.1 - p.1) * (c.2 - p.2) - (q.2 - p.2) * (c.1 - p.1) := by ring
    rw [e, show q.1 + u - (p.1 + u) = q.1 - p.1 by ring, show q.2 + v - (p.2 + v) = q.2 - p.2 by ring]
    exact h5

theorem near_sig {b : Box} {p q c : Cell} (h : Near (tau b p) (tau b q) c) : Near p q (sig b c) := by
  have := near_shift (u := b.minx - 1) (v := b.miny - 1) h
  have e1 : ∀ a : Cell, (a.1 + (b.minx - 1), a.2 + (b.miny - 1)) = sig b a := by intro a; unfold sig; ext <;> dsimp only <;> omega
  simp only [e1, sig_tau] at this
  exact this

theorem side_sig {b : Box} {p q : Cell} (h : Side p q) : Side (sig b p) (sig b q) := by
  unfold Side sig at *; dsimp only; omega

/-- the cells of the grid that are plotted -/
def plotted (ps : List Cell) : List Cell := plotAll ((ps ++ ps.take 1).map (tau (bounds ps)))

theorem edge_tau {ps : List Cell} {b : Box} {e : Cell × Cell} (h : e ∈ ((ps ++ ps.take 1).map (tau b)).zip ((ps ++ ps.take 1).map (tau b)).tail) :
    ∃ p q, Edge ps p q ∧ e = (tau b p, tau b q) := by
  rw [← List.map_tail, List.zip_map] at h
  obtain ⟨⟨p, q⟩, h1, rfl⟩ := List.mem_map.mp h
  exact ⟨p, q, h1, rfl⟩

theorem tau_edge {ps : List Cell} {b : Box} {p q : Cell} (h : Edge ps p q) : (tau b p, tau b q) ∈ ((ps ++ ps.take 1).map (tau b)).zip ((ps ++ ps.take 1).map (tau b)).tail := by
  rw [← List.map_tail, List.zip_map]
  exact List.mem_map.mpr ⟨(p, q), h, rfl⟩

theorem edge_mem {ps : List Cell} {p q : Cell} (h : Edge ps p q) : p ∈ ps ∧ q ∈ ps := by
  obtain ⟨h1, h2⟩ := List.of_mem_zip h
  have h2 := List.mem_of_mem_tail h2
  have k : ∀ a, a ∈ ps ++ ps.take 1 → a ∈ ps := by
    intro a ha
    rcases List.mem_append.mp ha with h | h
    · exact h
    · exact List.mem_of_mem_take h
  exact ⟨k _ h1, k _ h2⟩

theorem zip_tail_exists {p a : Cell} : ∀ {l : List Cell}, p ∈ l → ∃ q, (p, q) ∈ (l ++ [a]).zip (l ++ [a]).tail
  | [], h => by cases h
  | [b], h => by simp at h; subst h; exact ⟨a, by simp⟩
  | b :: c :: l, h => by
    rcases List.mem_cons.mp h with rfl | h
    · exact ⟨c, by simp⟩
    · obtain ⟨q, hq⟩ := zip_tail_exists (l := c :: l) h
      refine ⟨q, ?_⟩
      simp only [List.cons_append, List.tail_cons, List.zip_cons_cons, List.mem_cons] at *
      exact .inr hq

theorem edge_exists {ps : List Cell} {p : Cell} (h : p ∈ ps) : ∃ q, Edge ps p q := by
  obtain ⟨a, l, rfl⟩ : ∃ a l, ps = a :: l := by cases ps with | nil => cases h | cons a l => exact ⟨a, l, rfl⟩
  unfold Edge
  exact zip_tail_exists (a := a) h

theorem near_box {ps : List Cell} {p q c : Cell} (hp : p ∈ ps) (hq : q ∈ ps) (h : Near p q c) : InBox ps c := by
  obtain ⟨h1, h2, h3, h4, -⟩ := h
  refine ⟨?_, ?_, ?_, ?_⟩
  · rcases min_le_iff.mp h1 with h | h
    · exact ⟨p, hp, h⟩
    · exact ⟨q, hq, h⟩
  · rcases le_max_iff.mp h2 with h | h
    · exact ⟨p, hp, h⟩
    · exact ⟨q, hq, h⟩
  · rcases min_le_iff.mp h3 with h | h
    · exact ⟨p, hp, h⟩
    · exact ⟨q, hq, h⟩
  · rcases le_max_iff.mp h4 with h | h
    · exact ⟨p, hp, h⟩
    · exact ⟨q, hq, h⟩

theorem plotted_near {ps : List Cell} {c : Cell} (h : c ∈ plotted ps) : ∃ p q, Edge ps p q ∧ Near p q (sig (bounds ps) c) := by
  obtain ⟨e, he, hc⟩ := plotAll_mem.mp h
  obtain ⟨p, q, hpq, rfl⟩ := edge_tau he
  exact ⟨p, q, hpq, near_sig ((plotLine_ok _ _).2 c hc)⟩

theorem plotted_box {ps : List Cell} {c : Cell} (h : c ∈ plotted ps) : InBox ps (sig (bounds ps) c) := by
  obtain ⟨p, q, hpq, hn⟩ := plotted_near h
  exact near_box (edge_mem hpq).1 (edge_mem hpq).2 hn

section ring
open BfsSpec

theorem ring_steps {sx sy : Int} {free : Cell → Prop} (hx : 3 ≤ sx) (hy : 3 ≤ sy) (hf : ∀ c, In2 sx sy c → (c.1 = 0 ∨ c.1 = sx - 1 ∨ c.2 = 0 ∨ c.2 = sy - 1) → free c) {c : Cell}
    (hc : In2 sx sy c) (hr : c.1 = 0 ∨ c.1 = sx - 1 ∨ c.2 = 0 ∨ c.2 = sy - 1) : ∃ n, Steps (Adj2 sx sy) free (fun c => c = (0, 0)) c n := by
  have bottom : ∀ k : Nat, (k : Int) < sx → ∃ n, Steps (Adj2 sx sy) free (fun c => c = (0, 0)) ((k : Int), 0) n := by
    intro k
    induction k with
    | zero => intro _; exact ⟨0, .source rfl⟩
    | succ k ih =>
      intro hk
      push_cast at hk
      obtain ⟨n, hn⟩ := ih (by omega)
      have i2 : In2 sx sy (((k + 1 : Nat) : Int), 0) := by unfold In2; dsimp only; omega
      refine ⟨n + 1, hn.move ⟨?_, i2, ?_, ?_, ?_⟩ (hf _ i2 (by dsimp only; omega))⟩
      · unfold In2; dsimp only; omega
      · intro h; simp at h
      · dsimp only; rw [abs_le]; omega
      · simp
  have left : ∀ k : Nat, (k : Int) < sy → ∃ n, Steps (Adj2 sx sy) free (fun c => c = (0, 0)) (0, (k : Int)) n := by
    intro k
    induction k with
    | zero => intro _; exact ⟨0, .source rfl⟩
    | succ k ih =>
      intro hk
      push_cast at hk
      obtain ⟨n, hn⟩ := ih (by omega)
      have i2 : In2 sx sy (0, ((k + 1 : Nat) : Int)) := by unfold In2; dsimp only; omega
      refine ⟨n + 1, hn.move ⟨?_, i2, ?_, ?_, ?_⟩ (hf _ i2 (by dsimp only; omega))⟩
      · unfold In2; dsimp only; omega
      · intro h; simp at h
      · simp
      · dsimp only; rw [abs_le]; omega
  have top : ∀ k : Nat, (k : Int) < sx → ∃ n, Steps (Adj2 sx sy) free (fun c => c = (0, 0)) ((k : Int), sy - 1) n := by
    intro k
    induction k with
    | zero =>
      intro _
      obtain ⟨n, hn⟩ := left (sy - 1).toNat (by omega)
      rw [show (((sy - 1).toNat : Nat) : Int) = sy - 1 by omega] at hn
      exact ⟨n, hn⟩
    | succ k ih =>
      intro hk
      push_cast at hk
      obtain ⟨n, hn⟩ := ih (by omega)
      have i2 : In2 sx sy (((k + 1 : Nat) : Int), sy - 1) := by unfold In2; dsimp only; omega
      refine ⟨n + 1, hn.move ⟨?_, i2, ?_, ?_, ?_⟩ (hf _ i2 (by dsimp only; omega))⟩
      · unfold In2; dsimp only; omega
      · intro h; simp at h
      · dsimp only; rw [abs_le]; omega
      · simp
  have right : ∀ k : Nat, (k : Int) < sy → ∃ n, Steps (Adj2 sx sy) free (fun c => c = (0, 0)) (sx - 1, (k : Int)) n := by
    intro k
    induction k with
    | zero =>
      intro _
      obtain ⟨n, hn⟩ := bottom (sx - 1).toNat (by omega)
      rw [show (((sx - 1).toNat : Nat) : Int) = sx - 1 by omega] at hn
      exact ⟨n, hn⟩
    | succ k ih =>
      intro hk
      push_cast at hk
      obtain ⟨n, hn⟩ := ih (by omega)
      have i2 : In2 sx sy (sx - 1, ((k + 1 : Nat) : Int)) := by unfold In2; dsimp only; omega
      refine ⟨n + 1, hn.move ⟨?_, i2, ?_, ?_, ?_⟩ (hf _ i2 (by dsimp only; omega))⟩
      · unfold In2; dsimp only; omega
      · intro h; simp at h
      · simp
      · dsimp only; rw [abs_le]; omega
  obtain ⟨x, y⟩ := c
  obtain ⟨a1, a2, a3, a4⟩ := hc
  dsimp only at *
  have ex : ((x.toNat : Nat) : Int) = x := by omega
  have ey : ((y.toNat : Nat) : Int) = y := by omega
  rcases hr with rfl | rfl | rfl | rfl
  · obtain ⟨n, hn⟩ := left y.toNat (by omega); rw [ey] at hn; exact ⟨n, hn⟩
  · obtain ⟨n, hn⟩ := right y.toNat (by omega); rw [ey] at hn; exact ⟨n, hn⟩
  · obtain ⟨n, hn⟩ := bottom x.toNat (by omega); rw [ex] at hn; exact ⟨n, hn⟩
  · obtain ⟨n, hn⟩ := top x.toNat (by omega); rw [ex] at hn; exact ⟨n, hn⟩
end ring

open BfsSpec BFSProps in
theorem fill_spec {ps : List Cell} (hne : ps ≠ []) (hs : Small ps) (d : Int) :
    ∃ (N : Nat) (r : Result), (∀ fuel, N ≤ fuel → fill fuel d ps = some r) ∧
      (∀ c, c ∈ (plotted ps).map (sig (bounds ps)) → c ∈ r.cells) ∧ (∀ c ∈ r.cells, InBox ps c) ∧
      (∀ c, InBox ps c → ¬ Escapes (InBox ps) (fun a => a ∈ (plotted ps).map (sig (bounds ps))) c → c ∈ r.cells) ∧
      (r.full = false → ∀ c ∈ r.cells, ¬ Escapes (InBox ps) (fun a => a ∈ (plotted ps).map (sig (bounds ps))) c) := by
  have box := bounds_box hne hs
  have pb : ∀ c ∈ plotted ps, InBox ps (sig (bounds ps) c) := fun c hc => plotted_box hc
  obtain ⟨p0, hp0⟩ := List.exists_mem_of_ne_nil ps hne
  have b0 := (box p0).mp ⟨⟨p0, hp0, Int.le_refl _⟩, ⟨p0, hp0, Int.le_refl _⟩, ⟨p0, hp0, Int.le_refl _⟩, ⟨p0, hp0, Int.le_refl _⟩⟩
  have sig_mem : ∀ c, sig (bounds ps) c ∈ (plotted ps).map (sig (bounds ps)) ↔ c ∈ plotted ps := by
    intro c
    constructor
    · intro h
      obtain ⟨a, ha, e⟩ := List.mem_map.mp h
      have : a = c := by
        unfold sig at e; simp only [Prod.mk.injEq] at e; ext <;> omega
      exact this ▸ ha
    · exact fun h => List.mem_map.mpr ⟨c, h, rfl⟩
  generalize hb : bounds ps = b at *
  have hpl : plotted ps = plotAll ((ps ++ ps.take 1).map (tau b)) := by unfold plotted; rw [hb]
  generalize hP : plotted ps = P at *
  obtain ⟨sx, hsx⟩ : ∃ sx : Nat, (sx : Int) = (b.maxx - b.minx + 1) + 2 := ⟨((b.maxx - b.minx + 1) + 2).toNat, by omega⟩
  obtain ⟨sy, hsy⟩ : ∃ sy : Nat, (sy : Int) = (b.maxy - b.miny + 1) + 2 := ⟨((b.maxy - b.miny + 1) + 2).toNat, by omega⟩
  have o : Object2 sx sy 1 (-1) (BFS.B2.mk0 sx sy 1 (-1) d) := ⟨d, 0, [], rfl⟩
  have hq : 1 ≤ queueSize2 sx sy (-1) := by unfold queueSize2; rw [if_pos (by decide)]; omega
  obtain ⟨N, b', h1, h2, h3, -⟩ := fromPoint2 o hq (fun x y => if (x, y) ∈ P then 1 else 0) 0 0 (by unfold In2; dsimp only; omega)
  have fr : ∀ c, Free2 (fun x y => if (x, y) ∈ P then 1 else 0) 1 c ↔ c ∉ P := by
    intro c
    unfold Free2
    by_cases h : c ∈ P
    · simp [h]
    · simp [h]
  -- what the search reaches can escape
  have reach_esc : ∀ c n, Steps (Adj2 sx sy) (Free2 (fun x y => if (x, y) ∈ P then 1 else 0) 1) (fun c => c = (0, 0)) c n →
      Escapes (InBox ps) (fun a => a ∈ P.map (sig b)) (sig b c) := by
    intro c n h
    induction h with
    | source e =>
      subst e
      refine .out ?_
      rw [box]
      unfold sig; dsimp only; omega
    | @move c e n _ had hfr ih =>
      refine .step (d := sig b c) ?_ ?_ ?_ ih
      · rw [sig_mem]; exact (fr _).mp hfr
      · have := had.2.2.2.1; rw [abs_le] at this; unfold sig; dsimp only; rw [abs_le]; omega
      · have := had.2.2.2.2; rw [abs_le] at this; unfold sig; dsimp only; rw [abs_le]; omega
  -- what can escape is reached
  have esc_reach : ∀ a, Escapes (InBox ps) (fun a => a ∈ P.map (sig b)) a → ∀ c, a = sig b c → In2 sx sy c →
      ∃ n, Steps (Adj2 sx sy) (Free2 (fun x y => if (x, y) ∈ P then 1 else 0) 1) (fun c => c = (0, 0)) c n := by
    have ring : ∀ c, ¬ InBox ps (sig b c) → In2 sx sy c → ∃ n, Steps (Adj2 sx sy) (Free2 (fun x y => if (x, y) ∈ P then 1 else 0) 1) (fun c => c = (0, 0)) c n := by
      intro c hc hin
      refine ring_steps (by omega) (by omega) ?_ hin ?_
      · intro e he hr
        rw [fr]
        intro hm
        have := (box _).mp (pb _ hm)
        unfold sig at this; dsimp only at this
        unfold In2 at he
        omega
      · rw [box] at hc
        unfold sig at hc; dsimp only at hc
        unfold In2 at hin
        omega
    intro a h
    induction h with
    | out hout =>
      rintro c rfl hin
      exact ring c hout hin
    | @step a e hbd h1 h2 _ ih =>
      rintro c rfl hin
      by_cases hbox : InBox ps (sig b c)
      · have hcP : c ∉ P := fun h => hbd ((sig_mem c).mpr h)
        have hbox' := (box _).mp hbox
        have e' : e = sig b (tau b e) := (sig_tau b e).symm
        have hin' : In2 sx sy (tau b e) := by
          rw [abs_le] at h1 h2
          unfold In2 tau; unfold sig at h1 h2 hbox'; dsimp only at *; omega
        obtain ⟨n, hn⟩ := ih _ e' hin'
        by_cases hce : tau b e = c
        · exact ⟨n, hce ▸ hn⟩
        · refine ⟨n + 1, hn.move ⟨hin', hin, hce, ?_, ?_⟩ ((fr c).mpr hcP)⟩
          · rw [abs_le] at h1 ⊢; unfold sig at h1; unfold tau; dsimp only at *; omega
          · rw [abs_le] at h2 ⊢; unfold sig at h2; unfold tau; dsimp only at *; omega
      · exact ring c hbox hin
  refine ⟨N, ⟨(P ++ (((List.range sx).flatMap (fun i => (List.range sy).map (fun j => (i, j)))).filter
      (fun c => decide (1 ≤ c.1 ∧ (c.1 : Int) < (sx : Int) - 1 ∧ 1 ≤ c.2 ∧ (c.2 : Int) < (sy : Int) - 1 ∧ b'.getDistance c.1 c.2 < 0))).map (fun c => ((c.1 : Int), (c.2 : Int)))).map (sig b), b'.st.rej⟩, ?_, ?_, ?_, ?_, ?_⟩
  · intro fuel hf
    have := h1 fuel hf
    dsimp only at this
    unfold fill
    dsimp only
    rw [hb, ← hsx, ← hsy]
    have e : plotAll (List.map (fun p => (p.1 - b.minx + 1, p.2 - b.miny + 1)) (ps ++ List.take 1 ps)) = P := hpl.symm
    rw [e]
    simp only [Int.toNat_natCast]
    rw [this]
    rfl
  · intro c hc
    rw [List.map_append, List.mem_append]
    exact .inl hc
  · intro c hc
    rw [List.map_append, List.mem_append] at hc
    rcases hc with hc | hc
    · obtain ⟨a, ha, rfl⟩ := List.mem_map.mp hc
      exact pb a ha
    · obtain ⟨a, ha, rfl⟩ := List.mem_map.mp hc
      obtain ⟨e, he, rfl⟩ := List.mem_map.mp ha
      have he := (List.mem_filter.mp he).2
      rw [decide_eq_true_iff] at he
      rw [box]
      unfold sig; dsimp only; omega
  · intro c hc hesc
    rw [List.map_append, List.mem_append]
    right
    have hc' := (box c).mp hc
    have ex : (((c.1 - b.minx + 1).toNat : Nat) : Int) = c.1 - b.minx + 1 := by omega
    have ey : (((c.2 - b.miny + 1).toNat : Nat) : Int) = c.2 - b.miny + 1 := by omega
    refine List.mem_map.mpr ⟨tau b c, List.mem_map.mpr ⟨((c.1 - b.minx + 1).toNat, (c.2 - b.miny + 1).toNat), ?_, ?_⟩, sig_tau b c⟩
    · rw [List.mem_filter, decide_eq_true_iff]
      constructor
      · rw [List.mem_flatMap]
        refine ⟨(c.1 - b.minx + 1).toNat, by rw [List.mem_range]; omega, List.mem_map.mpr ⟨_, by rw [List.mem_range]; omega, rfl⟩⟩
      · dsimp only
        refine ⟨by omega, by omega, by omega, by omega, ?_⟩
        rcases h2 (c.1 - b.minx + 1).toNat (c.2 - b.miny + 1).toNat (by unfold In2; dsimp only; omega) with h | ⟨n, -, hst⟩
        · rw [h]; decide
        · exfalso
          rw [ex, ey] at hst
          have := reach_esc _ n hst
          apply hesc
          have e : sig b (c.1 - b.minx + 1, c.2 - b.miny + 1) = c := sig_tau b c
          rwa [e] at this
    · dsimp only; rw [ex, ey]; rfl
  · intro hfull c hc hesc
    rw [List.map_append, List.mem_append] at hc
    have bd : c ∈ P.map (sig b) → False := by
      intro hm
      obtain ⟨a, ha, rfl⟩ := List.mem_map.mp hm
      cases hesc with
      | out h => exact h (pb a ha)
      | step h => exact h hm
    rcases hc with hc | hc
    · exact bd hc
    · obtain ⟨a, ha, rfl⟩ := List.mem_map.mp hc
      obtain ⟨e, he, rfl⟩ := List.mem_map.mp ha
      have he := (List.mem_filter.mp he).2
      rw [decide_eq_true_iff] at he
      have hin : In2 sx sy ((e.1 : Int), (e.2 : Int)) := by unfold In2; dsimp only; omega
      obtain ⟨n, hn⟩ := esc_reach _ hesc _ rfl hin
      rcases h3 hfull e.1 e.2 hin with ⟨m, h, -⟩ | ⟨-, h⟩
      · omega
      · exact h n hn

end Sbpl.Fp
