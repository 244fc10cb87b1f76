import Verif.Model.Nav2DRobot
import Verif.Spec.Nav2DRobot
import Verif.Proofs.ARAMono
import Verif.Props.Nav2DARA
/-!
# The robot's loop: sensing, one pass, the measure that decreases
-/

namespace Sbpl.Robot
open Sbpl GridSpec GraphSpec PlannerSpec Nav2DProps ARA

/-! ### Moves are local -/

theorem touched_near {dx dy cx cy : Int} (hm : -2 ≤ dx ∧ dx ≤ 2 ∧ -2 ≤ dy ∧ dy ≤ 2) (h : Touched dx dy cx cy) :
    -2 ≤ cx ∧ cx ≤ 2 ∧ -2 ≤ cy ∧ cy ≤ 2 := by
  obtain ⟨p, q, h0, h1, h2, ⟨h3, h4⟩, h5, h6⟩ := h
  obtain ⟨m1, m2, m3, m4⟩ := hm
  have e1 : p * dx ≤ p * 2 := Int.mul_le_mul_of_nonneg_left m2 h0
  have e2 : p * (-2) ≤ p * dx := Int.mul_le_mul_of_nonneg_left m1 h0
  have e3 : p * dy ≤ p * 2 := Int.mul_le_mul_of_nonneg_left m4 h0
  have e4 : p * (-2) ≤ p * dy := Int.mul_le_mul_of_nonneg_left m3 h0
  refine ⟨?_, ?_, ?_, ?_⟩
  · by_contra hc
    have : q * cx ≤ q * (-3) := Int.mul_le_mul_of_nonneg_left (by omega) (by omega)
    omega
  · by_contra hc
    have : q * 3 ≤ q * cx := Int.mul_le_mul_of_nonneg_left (by omega) (by omega)
    omega
  · by_contra hc
    have : q * cy ≤ q * (-3) := Int.mul_le_mul_of_nonneg_left (by omega) (by omega)
    omega
  · by_contra hc
    have : q * 3 ≤ q * cy := Int.mul_le_mul_of_nonneg_left (by omega) (by omega)
    omega

theorem isMove_near {is16 : Bool} {dx dy : Int} (h : IsMove is16 dx dy) : -2 ≤ dx ∧ dx ≤ 2 ∧ -2 ≤ dy ∧ dy ≤ 2 := by
  rcases h with ⟨a, b, c, d, _⟩ | ⟨_, h⟩
  · omega
  · refine ⟨?_, ?_, ?_, ?_⟩ <;> nlinarith

theorem touched_end {dx dy : Int} : Touched dx dy dx dy :=
  ⟨1, 1, by omega, by omega, by omega, by omega, by omega⟩

theorem isMove_ne {is16 : Bool} {dx dy : Int} (h : IsMove is16 dx dy) : ¬(dx = 0 ∧ dy = 0) := by
  rcases h with h | ⟨_, h⟩
  · exact h.2.2.2.2
  · rintro ⟨rfl, rfl⟩; simp at h

/-- two maps that agree on the map cells around `p` have the same moves from `p` -/
theorem edge_local {W H : Int} {g g' : Int → Int → Nat} {obs : Nat} {is16 : Bool} {p q : Int × Int} {c : Nat}
    (hg : ∀ x y, InMap W H x y → -2 ≤ x - p.1 → x - p.1 ≤ 2 → -2 ≤ y - p.2 → y - p.2 ≤ 2 → g' x y = g x y)
    (h : Edge W H g obs is16 p q c) : Edge W H g' obs is16 p q c := by
  obtain ⟨m, l, h1, ⟨h2, ⟨cx, cy, h3, h4, h5⟩, h6⟩, h7, h8⟩ := h
  have e : ∀ cx cy, Touched (q.1 - p.1) (q.2 - p.2) cx cy → ¬(cx = 0 ∧ cy = 0) →
      g' (p.1 + cx) (p.2 + cy) = g (p.1 + cx) (p.2 + cy) := by
    intro cx cy ht hz
    have := touched_near (isMove_near h1) ht
    exact hg _ _ (h2 cx cy ht hz).1 (by omega) (by omega) (by omega) (by omega)
  exact ⟨m, l, h1, ⟨fun cx cy ht hz => ⟨(h2 cx cy ht hz).1, by rw [e cx cy ht hz]; exact (h2 cx cy ht hz).2⟩,
    ⟨cx, cy, h3, h4, by rw [e cx cy h3 h4]; exact h5⟩, h6⟩, h7, h8⟩

/-- the target of a move is a free cell of the map -/
theorem edge_target {W H : Int} {g : Int → Int → Nat} {obs : Nat} {is16 : Bool} {p q : Int × Int} {c : Nat}
    (h : Edge W H g obs is16 p q c) : InMap W H q.1 q.2 ∧ g q.1 q.2 < obs := by
  obtain ⟨m, l, h1, ⟨h2, _, h6⟩, _, _⟩ := h
  have := h2 _ _ touched_end (isMove_ne h1)
  rw [show p.1 + (q.1 - p.1) = q.1 by omega, show p.2 + (q.2 - p.2) = q.2 by omega] at this
  exact ⟨this.1, by omega⟩

/-- a bounded function on a non-empty set has a largest value -/
theorem exists_max {P : Int → Int → Prop} {f : Int → Int → Nat} : ∀ (m : Nat), (∀ x y, P x y → f x y ≤ m) → (∃ x y, P x y) →
    ∃ k, k ≤ m ∧ (∀ x y, P x y → f x y ≤ k) ∧ ∃ x y, P x y ∧ f x y = k := by
  intro m
  induction m with
  | zero =>
    rintro h ⟨x, y, hp⟩
    exact ⟨0, Nat.le_refl _, h, x, y, hp, Nat.le_zero.mp (h x y hp)⟩
  | succ m ih =>
    intro h hn
    by_cases hx : ∃ x y, P x y ∧ f x y = m + 1
    · exact ⟨m + 1, Nat.le_refl _, h, hx⟩
    · obtain ⟨k, h1, h2⟩ := ih (fun x y hp => by
        have := h x y hp
        have : f x y ≠ m + 1 := fun e => hx ⟨x, y, hp, e⟩
        omega) hn
      exact ⟨k, by omega, h2⟩

/-- on a cheaper map every move is still there, and costs no more -/
theorem edge_mono {W H : Int} {g g' : Int → Int → Nat} {obs : Nat} {is16 : Bool} {p q : Int × Int} {c : Nat}
    (hg : ∀ x y, g' x y ≤ g x y) (h : Edge W H g obs is16 p q c) : ∃ c', c' ≤ c ∧ Edge W H g' obs is16 p q c' := by
  obtain ⟨m, l, h1, ⟨h2, ⟨cx, cy, h3, h4, h5⟩, h6⟩, h7, h8⟩ := h
  obtain ⟨k, k1, k2, ux, uy, k3, k4⟩ := exists_max (P := fun cx cy => Touched (q.1 - p.1) (q.2 - p.2) cx cy ∧ ¬(cx = 0 ∧ cy = 0))
    (f := fun cx cy => g' (p.1 + cx) (p.2 + cy)) m
    (fun x y hp => Nat.le_trans (hg _ _) (h2 x y hp.1 hp.2).2) ⟨cx, cy, h3, h4⟩
  refine ⟨(k + 1) * l, ?_, k, l, h1, ⟨fun x y ht hz => ⟨(h2 x y ht hz).1, k2 x y ⟨ht, hz⟩⟩, ⟨ux, uy, k3.1, k3.2, k4⟩, by omega⟩,
    h7, rfl⟩
  rw [h8]
  exact Nat.mul_le_mul_right _ (by omega)

theorem gridWalk_mono {W H : Int} {g g' : Int → Int → Nat} {obs : Nat} {is16 : Bool} {p q : Int × Int} {n : Nat}
    (hg : ∀ x y, g' x y ≤ g x y) (w : GridWalk W H g obs is16 p q n) : ∃ n', n' ≤ n ∧ GridWalk W H g' obs is16 p q n' := by
  induction w with
  | nil => exact ⟨0, Nat.le_refl _, .nil⟩
  | snoc _ he ih =>
    obtain ⟨n', h1, h2⟩ := ih
    obtain ⟨c', h3, h4⟩ := edge_mono hg he
    exact ⟨n' + c', by omega, h2.snoc h4⟩

/-! ### Sensing -/

theorem senseCell_spec (T : NavTask) (pos d : Int × Int) (s : (Int → Int → Nat) × Bool) :
    (∀ x y, (senseCell T pos s d).1 x y = s.1 x y ∨ (senseCell T pos s d).1 x y = T.truth x y) ∧
    (∀ x y, s.1 x y = T.truth x y → (senseCell T pos s d).1 x y = T.truth x y) ∧
    (InMap T.W T.H (pos.1 + d.1) (pos.2 + d.2) →
      (senseCell T pos s d).1 (pos.1 + d.1) (pos.2 + d.2) = T.truth (pos.1 + d.1) (pos.2 + d.2)) ∧
    ((senseCell T pos s d).2 = false → senseCell T pos s d = s) ∧
    ((senseCell T pos s d).2 = true → s.2 = true ∨ ∃ x y, InMap T.W T.H x y ∧ s.1 x y ≠ T.truth x y ∧
      (senseCell T pos s d).1 x y = T.truth x y) := by
  unfold senseCell
  simp only
  split
  · next h =>
    refine ⟨fun _ _ => .inl rfl, fun _ _ e => e, ?_, fun _ => rfl, fun e => .inl e⟩
    rintro ⟨h1, h2, h3, h4⟩; omega
  · next h =>
    split
    · next hc =>
      refine ⟨?_, ?_, ?_, ?_, ?_⟩
      · intro x y
        simp only
        split
        · next e => right; rw [e.1, e.2]
        · exact .inl rfl
      · intro x y e
        simp only
        split
        · next e => rw [e.1, e.2]
        · exact e
      · intro _; simp
      · intro e; cases e
      · intro _
        right
        exact ⟨_, _, ⟨by omega, by omega, by omega, by omega⟩, hc, by simp⟩
    · next hc =>
      refine ⟨fun _ _ => .inl rfl, fun _ _ e => e, fun _ => by simpa using hc, fun _ => rfl, fun e => .inl e⟩

theorem foldl_spec (T : NavTask) (pos : Int × Int) : ∀ (L : List (Int × Int)) (s : (Int → Int → Nat) × Bool),
    (∀ x y, (L.foldl (senseCell T pos) s).1 x y = s.1 x y ∨ (L.foldl (senseCell T pos) s).1 x y = T.truth x y) ∧
    (∀ x y, s.1 x y = T.truth x y → (L.foldl (senseCell T pos) s).1 x y = T.truth x y) ∧
    (∀ d ∈ L, InMap T.W T.H (pos.1 + d.1) (pos.2 + d.2) →
      (L.foldl (senseCell T pos) s).1 (pos.1 + d.1) (pos.2 + d.2) = T.truth (pos.1 + d.1) (pos.2 + d.2)) ∧
    ((L.foldl (senseCell T pos) s).2 = false → L.foldl (senseCell T pos) s = s) ∧
    ((L.foldl (senseCell T pos) s).2 = true → s.2 = true ∨ ∃ x y, InMap T.W T.H x y ∧ s.1 x y ≠ T.truth x y ∧
      (L.foldl (senseCell T pos) s).1 x y = T.truth x y)
  | [], s => ⟨fun _ _ => .inl rfl, fun _ _ e => e, by simp, fun _ => rfl, fun e => .inl e⟩
  | d :: L, s => by
    obtain ⟨a1, a2, a3, a4, a5⟩ := senseCell_spec T pos d s
    obtain ⟨b1, b2, b3, b4, b5⟩ := foldl_spec T pos L (senseCell T pos s d)
    simp only [List.foldl_cons]
    refine ⟨?_, fun x y e => b2 x y (a2 x y e), ?_, ?_, ?_⟩
    · intro x y
      rcases b1 x y with e | e
      · rcases a1 x y with e' | e'
        · exact .inl (e.trans e')
        · exact .inr (e.trans e')
      · exact .inr e
    · intro e he hin
      rcases List.mem_cons.mp he with rfl | he
      · exact b2 _ _ (a3 hin)
      · exact b3 e he hin
    · intro e
      have e1 := b4 e
      rw [e1] at e ⊢
      exact a4 e
    · intro e
      rcases b5 e with e1 | ⟨x, y, h1, h2, h3⟩
      · rcases a5 e1 with e2 | ⟨x, y, h1, h2, h3⟩
        · exact .inl e2
        · exact .inr ⟨x, y, h1, h2, b2 x y h3⟩
      · exact .inr ⟨x, y, h1, fun hh => h2 (a2 x y hh), h3⟩

theorem mem_offsets {dx dy : Int} (h : -2 ≤ dx ∧ dx ≤ 2 ∧ -2 ≤ dy ∧ dy ≤ 2) : (dx, dy) ∈ offsets := by
  obtain ⟨h1, h2, h3, h4⟩ := h
  unfold offsets
  interval_cases dx <;> interval_cases dy <;> decide

/-! ### How much of the map is still wrong -/

def cells (T : NavTask) : List (Int × Int) :=
  (List.range T.W.toNat).flatMap (fun x : Nat => (List.range T.H.toNat).map (fun y : Nat => (Int.ofNat x, Int.ofNat y)))

def unknown (T : NavTask) (map : Int → Int → Nat) : Nat :=
  (cells T).countP (fun k => decide (map k.1 k.2 ≠ T.truth k.1 k.2))

theorem mem_cells {T : NavTask} {x y : Int} (h : InMap T.W T.H x y) : (x, y) ∈ cells T := by
  obtain ⟨h1, h2, h3, h4⟩ := h
  unfold cells
  simp only [List.mem_flatMap, List.mem_range, List.mem_map, Prod.mk.injEq]
  exact ⟨x.toNat, by omega, y.toNat, by omega, Int.toNat_of_nonneg h1, Int.toNat_of_nonneg h3⟩

theorem length_flatMap_const {α β : Type} (L : List α) (f : α → List β) (k : Nat) (h : ∀ a, (f a).length = k) :
    (L.flatMap f).length = L.length * k := by
  induction L with
  | nil => simp
  | cons a L ih => rw [List.flatMap_cons, List.length_append, ih, h, List.length_cons, Nat.succ_mul]; omega

theorem length_cells (T : NavTask) : (cells T).length = T.W.toNat * T.H.toNat := by
  unfold cells
  rw [length_flatMap_const _ _ T.H.toNat (by simp), List.length_range]

theorem unknown_le (T : NavTask) (map : Int → Int → Nat) : unknown T map ≤ T.W.toNat * T.H.toNat := by
  exact Nat.le_trans List.countP_le_length (Nat.le_of_eq (length_cells T))

theorem countP_lt {α : Type} (p q : α → Bool) : ∀ (L : List α), (∀ a ∈ L, p a = true → q a = true) →
    (∃ a ∈ L, q a = true ∧ p a = false) → L.countP p < L.countP q
  | [], _, h => by obtain ⟨a, ha, _⟩ := h; cases ha
  | b :: L, h, hx => by
    rw [List.countP_cons, List.countP_cons]
    have mono : L.countP p ≤ L.countP q := List.countP_mono_left (fun a ha => h a (by simp [ha]))
    have hb := h b (by simp)
    obtain ⟨a, ha, h1, h2⟩ := hx
    rcases List.mem_cons.mp ha with rfl | ha
    · rw [if_pos h1, h2, if_neg (by simp)]; omega
    · have := countP_lt p q L (fun a ha => h a (by simp [ha])) ⟨a, ha, h1, h2⟩
      by_cases hp : p b = true
      · rw [if_pos hp, if_pos (hb hp)]; omega
      · rw [if_neg hp]; split <;> omega

theorem unknown_lt {T : NavTask} {map map' : Int → Int → Nat} (h : ∀ x y, map' x y = map x y ∨ map' x y = T.truth x y)
    {x y : Int} (hin : InMap T.W T.H x y) (h1 : map x y ≠ T.truth x y) (h2 : map' x y = T.truth x y) :
    unknown T map' < unknown T map := by
  refine countP_lt _ _ _ ?_ ⟨(x, y), mem_cells hin, by simpa using h1, by simpa using h2⟩
  intro k _ hk
  rcases h k.1 k.2 with e | e
  · rw [e] at hk; exact hk
  · simp [e] at hk

/-! ### Reversing moves, and short walks -/

theorem touched_rev {dx dy cx cy : Int} (h : Touched dx dy cx cy) : Touched (-dx) (-dy) (cx - dx) (cy - dy) := by
  obtain ⟨p, q, h0, h1, h2, ⟨h3, h4⟩, h5, h6⟩ := h
  refine ⟨q - p, q, by omega, by omega, h2, ?_⟩
  have e1 : (q - p) * (-dx) - q * (cx - dx) = p * dx - q * cx := by ring
  have e2 : (q - p) * (-dy) - q * (cy - dy) = p * dy - q * cy := by ring
  rw [e1, e2]
  exact ⟨⟨h3, h4⟩, h5, h6⟩

/-- from a free cell of the map a move can be undone -/
theorem edge_rev {W H : Int} {g : Int → Int → Nat} {obs : Nat} {is16 : Bool} {p q : Int × Int} {c : Nat}
    (hin : InMap W H p.1 p.2) (hfree : g p.1 p.2 < obs) (h : Edge W H g obs is16 p q c) :
    ∃ c', Edge W H g obs is16 q p c' := by
  obtain ⟨m, l, h1, ⟨h2, _, h6⟩, h7, h8⟩ := h
  have mv : IsMove is16 (p.1 - q.1) (p.2 - q.2) := by
    rcases h1 with ⟨a, b, c, d, e⟩ | ⟨a, b⟩
    · left; omega
    · right; exact ⟨a, by rw [← b]; ring⟩
  have back : ∀ cx cy, Touched (p.1 - q.1) (p.2 - q.2) cx cy → ¬(cx = 0 ∧ cy = 0) →
      InMap W H (q.1 + cx) (q.2 + cy) ∧ g (q.1 + cx) (q.2 + cy) ≤ max m (g p.1 p.2) := by
    intro cx cy ht _
    have t := touched_rev ht
    rw [show -(p.1 - q.1) = q.1 - p.1 by omega, show -(p.2 - q.2) = q.2 - p.2 by omega] at t
    by_cases hz : cx - (p.1 - q.1) = 0 ∧ cy - (p.2 - q.2) = 0
    · rw [show q.1 + cx = p.1 by omega, show q.2 + cy = p.2 by omega]
      exact ⟨hin, Nat.le_max_right _ _⟩
    · have := h2 _ _ t hz
      rw [show p.1 + (cx - (p.1 - q.1)) = q.1 + cx by omega, show p.2 + (cy - (p.2 - q.2)) = q.2 + cy by omega] at this
      exact ⟨this.1, Nat.le_trans this.2 (Nat.le_max_left _ _)⟩
  obtain ⟨k, k1, k2, ux, uy, k3, k4⟩ := exists_max
    (P := fun cx cy => Touched (p.1 - q.1) (p.2 - q.2) cx cy ∧ ¬(cx = 0 ∧ cy = 0))
    (f := fun cx cy => g (q.1 + cx) (q.2 + cy)) (max m (g p.1 p.2))
    (fun x y hp => (back x y hp.1 hp.2).2) ⟨_, _, touched_end, isMove_ne mv⟩
  refine ⟨(k + 1) * l, k, l, mv, ⟨fun x y ht hz => ⟨(back x y ht hz).1, k2 x y ⟨ht, hz⟩⟩, ⟨ux, uy, k3.1, k3.2, k4⟩, by omega⟩,
    ?_, rfl⟩
  unfold IsLength at h7 ⊢
  rw [show (p.1 - q.1) * (p.1 - q.1) + (p.2 - q.2) * (p.2 - q.2) =
    (q.1 - p.1) * (q.1 - p.1) + (q.2 - p.2) * (q.2 - p.2) by ring]
  exact h7

/-- no move costs more than `obs * 2236` -/
theorem edge_cost_le {W H : Int} {g : Int → Int → Nat} {obs : Nat} {is16 : Bool} {p q : Int × Int} {c : Nat}
    (h : Edge W H g obs is16 p q c) : c ≤ obs * 2236 := by
  obtain ⟨m, l, h1, ⟨_, _, h6⟩, ⟨h7, _⟩, rfl⟩ := h
  generalize q.1 - p.1 = dx at *
  generalize q.2 - p.2 = dy at *
  have hd : dx * dx + dy * dy ≤ 5 := by
    rcases h1 with ⟨a, b, c, d, _⟩ | ⟨_, h⟩
    · nlinarith
    · omega
  have hl : l ≤ 2236 := by
    by_contra hc
    have : (2237 : Int) ≤ l := by omega
    have : (2237 : Int) * 2237 ≤ (l : Int) * l := Int.mul_le_mul this this (by omega) (by omega)
    omega
  exact Nat.mul_le_mul (by omega) hl

/-- a simple path from `a`, last cell first -/
inductive NPath (W H : Int) (g : Int → Int → Nat) (obs : Nat) (a : Int × Int) : List (Int × Int) → Prop
  | nil : NPath W H g obs a [a]
  | cons {b t : Int × Int} {L : List (Int × Int)} {c : Nat} : NPath W H g obs a (b :: L) → Edge W H g obs true b t c →
      t ∉ b :: L → NPath W H g obs a (t :: b :: L)

theorem NPath.cut {W H : Int} {g : Int → Int → Nat} {obs : Nat} {a : Int × Int} {L : List (Int × Int)}
    (h : NPath W H g obs a L) : ∀ x ∈ L, ∃ L', NPath W H g obs a (x :: L') := by
  induction h with
  | nil => intro x hx; rw [List.mem_singleton] at hx; subst hx; exact ⟨[], .nil⟩
  | cons h he hn ih =>
    intro x hx
    rcases List.mem_cons.mp hx with rfl | hx
    · exact ⟨_, .cons h he hn⟩
    · exact ih x hx

theorem NPath.nodup {W H : Int} {g : Int → Int → Nat} {obs : Nat} {a : Int × Int} {L : List (Int × Int)}
    (h : NPath W H g obs a L) : L.Nodup := by
  induction h with
  | nil => simp
  | cons _ _ hn ih => exact List.nodup_cons.mpr ⟨hn, ih⟩

theorem NPath.inMap {W H : Int} {g : Int → Int → Nat} {obs : Nat} {a : Int × Int} {L : List (Int × Int)}
    (ha : InMap W H a.1 a.2) (h : NPath W H g obs a L) : ∀ x ∈ L, InMap W H x.1 x.2 := by
  induction h with
  | nil => intro x hx; rw [List.mem_singleton] at hx; subst hx; exact ha
  | cons _ he _ ih =>
    intro x hx
    rcases List.mem_cons.mp hx with rfl | hx
    · exact (edge_target he).1
    · exact ih x hx

theorem NPath.walk {W H : Int} {g : Int → Int → Nat} {obs : Nat} {a : Int × Int} {L : List (Int × Int)}
    (h : NPath W H g obs a L) : ∃ t n, L.head? = some t ∧ GridWalk W H g obs true a t n ∧ n ≤ L.length * (obs * 2236) := by
  induction h with
  | nil => exact ⟨a, 0, rfl, .nil, Nat.zero_le _⟩
  | @cons b t L c _ he _ ih =>
    obtain ⟨t', n, h1, h2, h3⟩ := ih
    simp only [List.head?_cons, Option.some.injEq] at h1
    subst h1
    refine ⟨t, n + c, rfl, h2.snoc he, ?_⟩
    have := edge_cost_le he
    rw [List.length_cons, Nat.succ_mul]
    omega

/-- whatever can be reached can be reached at a cost of at most `W * H * obs * 2236` -/
theorem short_walk {T : NavTask} {g : Int → Int → Nat} {a t : Int × Int} {n : Nat} (ha : InMap T.W T.H a.1 a.2)
    (w : GridWalk T.W T.H g T.obs true a t n) :
    ∃ n', n' ≤ T.W.toNat * T.H.toNat * (T.obs * 2236) ∧ GridWalk T.W T.H g T.obs true a t n' := by
  have : ∃ L, NPath T.W T.H g T.obs a (t :: L) := by
    induction w with
    | nil => exact ⟨[], .nil⟩
    | @snoc b t n c _ he ih =>
      obtain ⟨L, h⟩ := ih
      by_cases hm : t ∈ b :: L
      · exact h.cut t hm
      · exact ⟨_, .cons h he hm⟩
  obtain ⟨L, h⟩ := this
  obtain ⟨t', n', h1, h2, h3⟩ := h.walk
  simp only [List.head?_cons, Option.some.injEq] at h1
  subst h1
  refine ⟨n', Nat.le_trans h3 (Nat.mul_le_mul_right _ ?_), h2⟩
  rw [← length_cells]
  exact nodup_length_le h.nodup (fun x hx => mem_cells (h.inMap ha x hx))

theorem gridWalk_append {W H : Int} {g : Int → Int → Nat} {obs : Nat} {is16 : Bool} {a b t : Int × Int} {n m : Nat}
    (w1 : GridWalk W H g obs is16 a b n) (w2 : GridWalk W H g obs is16 b t m) : GridWalk W H g obs is16 a t (n + m) := by
  induction w2 with
  | nil => exact w1
  | snoc _ he ih => rw [← Nat.add_assoc]; exact ih.snoc he

/-- the robot can go back the way it came -/
theorem trail_back {W H : Int} {g : Int → Int → Nat} {obs : Nat} : ∀ (l : List (Int × Int)) {a p : Int × Int},
    Trail W H g obs l → l.head? = some a → l.getLast? = some p → InMap W H a.1 a.2 → g a.1 a.2 < obs →
    InMap W H p.1 p.2 ∧ ∃ n, GridWalk W H g obs true p a n
  | [], _, _, h, _, _, _, _ => by cases h
  | [b], a, p, _, h1, h2, h3, _ => by
    simp at h1 h2; subst h1; subst h2
    exact ⟨h3, 0, .nil⟩
  | b :: q :: l, a, p, h, h1, h2, h3, h4 => by
    simp only [List.head?_cons, Option.some.injEq] at h1
    subst h1
    cases h with
    | step c he ht =>
      have e := edge_target he
      obtain ⟨c', he'⟩ := edge_rev h3 h4 he
      obtain ⟨hp, n, w⟩ := trail_back (q :: l) ht rfl (by rw [List.getLast?_cons_cons] at h2; exact h2) e.1 e.2
      exact ⟨hp, n + c', w.snoc he'⟩

end Sbpl.Robot
