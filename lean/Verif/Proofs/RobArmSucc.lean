import Verif.Model.RobArmRand
import Verif.Proofs.RobArmGeom
/-! # Successors and state IDs of the robot arm -/
set_option linter.unusedSectionVars false

namespace Sbpl.ArmPr
open RobArm ArmSpec

variable {K : Type} [Field K] [LinearOrder K] [IsStrictOrderedRing K] [FloorRing K] {c : Cfg K}

/-! ## One step of one joint -/

theorem mem_moves {ls : List (Link K)} {ks k' : List Nat} (hv : ∀ l ∈ ls, 1 ≤ l.vals) (hc : List.Forall₂ (fun (l : Link K) v => v < l.vals) ls ks) :
    k' ∈ moves ls ks ↔ Turned ls ks k' := by
  induction hc generalizing k' with
  | nil => simp [moves]; intro h; cases h
  | @cons l k ls ks hk _ ih =>
    have ih := @ih
    unfold moves
    simp only [List.mem_cons, List.mem_map]
    have hl := hv l (List.mem_cons_self ..)
    constructor
    · rintro (rfl | rfl | ⟨r, hr, rfl⟩)
      · refine .down ?_ ?_
        · unfold turn; simp only [Bool.false_eq_true, if_false]; split <;> omega
        · unfold turn; simp only [Bool.false_eq_true, if_false]
          split
          · have : l.vals - 1 + 1 = l.vals := by omega
            rw [this, Nat.mod_self]; omega
          · have : k - 1 + 1 = k := by omega
            rw [this]; exact Nat.mod_eq_of_lt hk
      · exact .up
      · exact .other ((ih (fun l h => hv l (List.mem_cons_of_mem _ h))).mp hr)
    · intro h
      cases h with
      | up => right; left; rfl
      | @down _ _ _ v _ h1 h2 =>
        left
        congr 1
        unfold turn
        simp only [Bool.false_eq_true, if_false]
        by_cases e : v + 1 = l.vals
        · rw [e, Nat.mod_self] at h2
          rw [if_pos h2.symm]; omega
        · rw [Nat.mod_eq_of_lt (by omega)] at h2
          rw [if_neg (by omega)]; omega
      | other h => right; right; exact ⟨_, (ih (fun l h => hv l (List.mem_cons_of_mem _ h))).mpr h, rfl⟩

theorem Turned.canon {ls : List (Link K)} {ks k' : List Nat} (hv : ∀ l ∈ ls, 1 ≤ l.vals) (hc : List.Forall₂ (fun (l : Link K) v => v < l.vals) ls ks) (h : Turned ls ks k') :
    List.Forall₂ (fun (l : Link K) v => v < l.vals) ls k' := by
  induction h with
  | up => cases hc with | cons h1 h2 => exact .cons (Nat.mod_lt _ (hv _ (List.mem_cons_self ..))) h2
  | down h1 _ => cases hc with | cons _ h2 => exact .cons h1 h2
  | other _ ih => cases hc with | cons h1 h2 => exact .cons h1 (ih (fun l h => hv l (List.mem_cons_of_mem _ h)) h2)

theorem Turned.symm {ls : List (Link K)} {ks k' : List Nat} (hc : List.Forall₂ (fun (l : Link K) v => v < l.vals) ls ks) (h : Turned ls ks k') :
    Turned ls k' ks := by
  induction h with
  | up => cases hc with | cons h1 h2 => exact .down h1 rfl
  | down h1 h2 => subst h2; exact .up
  | other _ ih => cases hc with | cons h1 h2 => exact .other (ih h2)

theorem Canon.isConf {k : List Nat} (h : Canon c k) : IsConf c k := h.length_eq.symm

theorem endPos_shift : ∀ (ls : List (Link K)) (ks : List Nat) (p v : K × K), endPos ls ks (p.1 + v.1, p.2 + v.2) = ((endPos ls ks p).1 + v.1, (endPos ls ks p).2 + v.2) := by
  intro ls
  induction ls with
  | nil => intro ks p v; simp [endPos]
  | cons l ls ih =>
    intro ks p v
    cases ks with
    | nil => simp [endPos]
    | cons k ks =>
      unfold endPos
      rw [← ih]
      unfold Link.tip
      congr 1
      simp only
      exact Prod.ext (by simp only; ring) (by simp only; ring)

theorem endPos_turned {cell : K} {ls : List (Link K)} {ks k' : List Nat}
    (fine : ∀ l ∈ ls, ∀ k, k < l.vals → |l.len * l.cs ((k + 1) % l.vals) - l.len * l.cs k| ≤ cell ∧ |l.len * l.sn ((k + 1) % l.vals) - l.len * l.sn k| ≤ cell)
    (hc : List.Forall₂ (fun (l : Link K) v => v < l.vals) ls ks) (h : Turned ls ks k') :
    ∀ p, |(endPos ls k' p).1 - (endPos ls ks p).1| ≤ cell ∧ |(endPos ls k' p).2 - (endPos ls ks p).2| ≤ cell := by
  have step : ∀ {l : Link K} {ls : List (Link K)} {a b : Nat} {ks : List Nat} (p : K × K), |l.len * l.cs b - l.len * l.cs a| ≤ cell ∧ |l.len * l.sn b - l.len * l.sn a| ≤ cell →
      |(endPos (l :: ls) (b :: ks) p).1 - (endPos (l :: ls) (a :: ks) p).1| ≤ cell ∧ |(endPos (l :: ls) (b :: ks) p).2 - (endPos (l :: ls) (a :: ks) p).2| ≤ cell := by
    intro l ls a b ks p hb
    unfold endPos
    have e : l.tip b p = ((l.tip a p).1 + (l.len * l.cs b - l.len * l.cs a), (l.tip a p).2 + (l.len * l.sn a - l.len * l.sn b)) := by
      unfold Link.tip; exact Prod.ext (by simp only; ring) (by simp only; ring)
    rw [e, endPos_shift ls ks (l.tip a p) (l.len * l.cs b - l.len * l.cs a, l.len * l.sn a - l.len * l.sn b)]
    simp only [add_sub_cancel_left]
    exact ⟨hb.1, by rw [abs_sub_comm]; exact hb.2⟩
  induction h with
  | @up l ls k ks =>
    intro p
    cases hc with
    | cons h1 h2 => exact step p (fine l (List.mem_cons_self ..) k h1)
  | @down l ls k v ks h1 h2 =>
    intro p
    cases hc with
    | cons h3 h4 =>
      subst h2
      have := fine l (List.mem_cons_self ..) v h1
      exact step p ⟨by rw [abs_sub_comm]; exact this.1, by rw [abs_sub_comm]; exact this.2⟩
  | other _ ih =>
    intro p
    cases hc with
    | cons h1 h2 =>
      unfold endPos
      exact ih (fun l h => fine l (List.mem_cons_of_mem _ h)) h2 _

theorem cell_close {cell x y : K} (hc : 0 < cell) {i j : Nat} (hi : (i : K) * cell ≤ x ∧ x < (i + 1) * cell) (hj : (j : K) * cell ≤ y ∧ y < (j + 1) * cell)
    (h : |y - x| ≤ cell) : |(i : Int) - j| ≤ 1 := by
  rw [abs_le] at h
  have h1 : (i : K) < j + 2 := by
    have : (i : K) * cell < (j + 2) * cell := by nlinarith
    exact lt_of_mul_lt_mul_right this hc.le
  have h2 : (j : K) < i + 2 := by
    have : (j : K) * cell < (i + 2) * cell := by nlinarith
    exact lt_of_mul_lt_mul_right this hc.le
  have h1 : i < j + 2 := by exact_mod_cast h1
  have h2 : j < i + 2 := by exact_mod_cast h2
  rw [abs_le]
  omega

/-- one step of one joint moves the end effector to the same or an adjacent cell -/
theorem endCell_turned (ok : CfgOk c) (hne : c.links ≠ []) (fine : FineSteps c) {k k' : List Nat} (hc : Canon c k) (h : Turned c.links k k') (v : Valid c k) (v' : Valid c k') :
    |((c.endCell k).1 : Int) - (c.endCell k').1| ≤ 1 ∧ |((c.endCell k).2 : Int) - (c.endCell k').2| ≤ 1 := by
  have := endPos_turned fine hc h c.base
  obtain ⟨_, _, p1⟩ := endCell_valid ok hne v
  obtain ⟨_, _, p2⟩ := endCell_valid ok hne v'
  rw [← endPos_effector] at p1 p2
  exact ⟨cell_close ok.cell ⟨p1.1, p1.2.1⟩ ⟨p2.1, p2.2.1⟩ this.1, cell_close ok.cell p1.2.2 p2.2.2 this.2⟩

/-! ## Tables -/

/-- invariant of the tables of an initialised environment -/
structure EInv (c : Cfg K) (e : Env K) : Prop where
  cfg : e.cfg = c
  ids : ∀ i (x : Entry), e.table[i]? = some x → x.id = i
  bins : ∀ b, e.bins b = e.table.filter (fun x => decide (hashBin x.coord = b))
  start : e.table[0]? = some ⟨0, c.startCoord, (c.endCell c.startCoord).1, (c.endCell c.startCoord).2⟩
  goal : e.table[1]? = some ⟨1, zero c, c.gx, c.gy⟩
  rest : ∀ i (x : Entry), 2 ≤ i → e.table[i]? = some x → Canon c x.coord ∧ Valid c x.coord ∧ (x.ex, x.ey) = c.endCell x.coord
  dist : ∀ i j (x y : Entry), e.table[i]? = some x → e.table[j]? = some y → x.coord = y.coord → i = j ∨ (i ≤ 1 ∧ j ≤ 1)

theorem find_eq {e : Env K} (i : EInv c e) (k : List Nat) : e.find k = e.table.find? (fun x => decide (x.coord = k)) := by
  unfold Env.find
  rw [i.bins]
  generalize e.table = t
  induction t with
  | nil => rfl
  | cons x t ih =>
    by_cases h : x.coord = k
    · have h1 : hashBin x.coord = hashBin k := by rw [h]
      rw [List.filter_cons_of_pos (by simp [h1]), List.find?_cons_of_pos (by simp [h]), List.find?_cons_of_pos (by simp [h])]
    · rw [List.find?_cons_of_neg (by simp [h])]
      by_cases h2 : hashBin x.coord = hashBin k
      · rw [List.filter_cons_of_pos (by simp [h2]), List.find?_cons_of_neg (by simp [h])]; exact ih
      · rw [List.filter_cons_of_neg (by simp [h2])]; exact ih

theorem find_some {e : Env K} (i : EInv c e) {k : List Nat} {x : Entry} (h : e.find k = some x) : e.table[x.id]? = some x ∧ x.coord = k := by
  rw [find_eq i] at h
  have h1 := List.find?_some h
  obtain ⟨n, hn⟩ := List.mem_iff_getElem?.mp (List.mem_of_find?_eq_some h)
  rw [i.ids n x hn]
  exact ⟨hn, by simpa using h1⟩

theorem find_none {e : Env K} (i : EInv c e) {k : List Nat} (h : e.find k = none) {n : Nat} {x : Entry} (hx : e.table[n]? = some x) : x.coord ≠ k := by
  rw [find_eq i, List.find?_eq_none] at h
  have := h x (List.mem_of_getElem? hx)
  simpa using this

/-- the ID that stands for configuration `k` -/
def Stands (c : Cfg K) (e : Env K) (i : Nat) (k : List Nat) : Prop :=
  if c.endCell k = (c.gx, c.gy) ∨ (k = zero c ∧ c.startCoord ≠ zero c) then i = goalId
  else i ≠ goalId ∧ ∃ x, e.table[i]? = some x ∧ x.coord = k

theorem Stands.mono {e e' : Env K} {i : Nat} {k : List Nat} (h : Stands c e i k) (hp : e.table <+: e'.table) : Stands c e' i k := by
  unfold Stands at *
  split
  · next h1 => rw [if_pos h1] at h; exact h
  · next h1 =>
    rw [if_neg h1] at h
    obtain ⟨h2, x, hx, hk⟩ := h
    obtain ⟨t, ht⟩ := hp
    refine ⟨h2, x, ?_, hk⟩
    rw [← ht, List.getElem?_append_left (List.getElem?_eq_some_iff.mp hx).1]; exact hx

theorem create_inv {e : Env K} (i : EInv c e) {k : List Nat} (hc : Canon c k) (hv : Valid c k) (hn : e.find k = none) :
    EInv c (e.create k (c.endCell k)).1 := by
  have l2 : 2 ≤ e.table.length := by
    have := (List.getElem?_eq_some_iff.mp i.goal).1
    omega
  unfold Env.create
  constructor
  · exact i.cfg
  · intro j x hx
    have hx : (e.table ++ [_])[j]? = some x := hx
    rcases Nat.lt_or_ge j e.table.length with h | h
    · rw [List.getElem?_append_left h] at hx; exact i.ids j x hx
    · rw [List.getElem?_append_right h] at hx
      have := (List.getElem?_eq_some_iff.mp hx).1
      simp at this
      have hj : j = e.table.length := by omega
      rw [hj] at hx
      simp at hx
      rw [← hx, hj]
  · intro b
    show upd e.bins (hashBin k) (e.bins (hashBin k) ++ [_]) b = (e.table ++ [_]).filter _
    rw [List.filter_append]
    by_cases h : b = hashBin k
    · subst h
      rw [upd_same, i.bins, List.filter_cons_of_pos (by simp)]
      rfl
    · rw [upd_other _ _ h, i.bins, List.filter_cons_of_neg (by simp; exact fun e => h e.symm)]
      simp
  · show (e.table ++ [_])[0]? = _
    rw [List.getElem?_append_left (by omega)]; exact i.start
  · show (e.table ++ [_])[1]? = _
    rw [List.getElem?_append_left (by omega)]; exact i.goal
  · intro j x h2 hx
    have hx : (e.table ++ [_])[j]? = some x := hx
    rcases Nat.lt_or_ge j e.table.length with h | h
    · rw [List.getElem?_append_left h] at hx; exact i.rest j x h2 hx
    · rw [List.getElem?_append_right h] at hx
      have := (List.getElem?_eq_some_iff.mp hx).1
      simp at this
      have hj : j = e.table.length := by omega
      rw [hj] at hx
      simp at hx
      rw [← hx]
      exact ⟨hc, hv, rfl⟩
  · intro a b x y hx hy he
    have hx : (e.table ++ [_])[a]? = some x := hx
    have hy : (e.table ++ [_])[b]? = some y := hy
    have get : ∀ {j z}, (e.table ++ [(⟨e.table.length, k, (c.endCell k).1, (c.endCell k).2⟩ : Entry)])[j]? = some z → e.table[j]? = some z ∨ (j = e.table.length ∧ z.coord = k) := by
      intro j z h
      rcases Nat.lt_or_ge j e.table.length with h1 | h1
      · rw [List.getElem?_append_left h1] at h; exact .inl h
      · rw [List.getElem?_append_right h1] at h
        have := (List.getElem?_eq_some_iff.mp h).1
        simp at this
        have hj : j = e.table.length := by omega
        rw [hj] at h
        simp at h
        exact .inr ⟨hj, by rw [← h]⟩
    rcases get hx with h1 | ⟨h1, h1'⟩ <;> rcases get hy with h2 | ⟨h2, h2'⟩
    · exact i.dist a b x y h1 h2 he
    · exact absurd (he.trans h2') (find_none i hn h1)
    · exact absurd (he.symm.trans h1') (find_none i hn h2)
    · exact .inl (h1.trans h2.symm)

/-- what the environment knows about a state other than the goal -/
theorem entry_ok {e : Env K} (i : EInv c e) (hs : Canon c c.startCoord) (vs : Valid c c.startCoord) {n : Nat} {x : Entry} (hn : n ≠ goalId) (hx : e.table[n]? = some x) :
    Canon c x.coord ∧ Valid c x.coord ∧ (x.ex, x.ey) = c.endCell x.coord := by
  unfold goalId at hn
  rcases Nat.lt_or_ge n 2 with h | h
  · have : n = 0 := by omega
    subst this
    rw [i.start] at hx
    cases hx
    exact ⟨hs, vs, rfl⟩
  · exact i.rest n x h hx

theorem randId_spec {e : Env K} (i : EInv c e) {k : List Nat} (hck : Canon c k) (hv : Valid c k) :
    EInv c (e.randId k).1 ∧ e.table <+: (e.randId k).1.table ∧ (e.randId k).1.heur = e.heur ∧ Stands c (e.randId k).1 (e.randId k).2 k := by
  unfold Env.randId
  rw [i.cfg]
  by_cases hg : c.endCell k = (c.gx, c.gy)
  · rw [if_pos hg]
    refine ⟨i, List.prefix_refl _, rfl, ?_⟩
    unfold Stands
    rw [if_pos (.inl hg)]
  · rw [if_neg hg]
    cases hf : e.find k with
    | some y =>
      dsimp only
      obtain ⟨h1, h2⟩ := find_some i hf
      refine ⟨i, List.prefix_refl _, rfl, ?_⟩
      unfold Stands
      by_cases hz : k = zero c ∧ c.startCoord ≠ zero c
      · rw [if_pos (.inr hz)]
        rcases i.dist y.id 1 y _ h1 i.goal (by rw [h2]; exact hz.1) with h | ⟨h, _⟩
        · exact h
        · rcases Nat.eq_or_lt_of_le h with h' | h'
          · exact h'
          · have : y.id = 0 := by omega
            rw [this, i.start] at h1
            have e1 := (Option.some.inj h1).symm
            rw [e1] at h2
            exact absurd (h2.trans hz.1) hz.2
      · rw [if_neg (by rintro (h | h); exact hg h; exact hz h)]
        refine ⟨?_, y, h1, h2⟩
        intro hy
        have hy : y.id = 1 := hy
        rw [hy, i.goal] at h1
        have e1 := (Option.some.inj h1).symm
        rw [e1] at h2
        have h2 : zero c = k := h2
        -- the start is the first entry of the zero configuration
        have hst : c.startCoord = zero c := by
          by_contra hne
          exact hz ⟨h2.symm, hne⟩
        rw [find_eq i] at hf
        have t0 : ∃ t, e.table = ⟨0, c.startCoord, (c.endCell c.startCoord).1, (c.endCell c.startCoord).2⟩ :: t := by
          have := i.start
          cases ht : e.table with
          | nil => rw [ht] at this; cases this
          | cons a t => rw [ht] at this; simp at this; exact ⟨t, by rw [this]⟩
        obtain ⟨t, ht⟩ := t0
        rw [ht, List.find?_cons_of_pos (by simp [hst, h2])] at hf
        cases hf
        cases hy
    | none =>
      dsimp only
      refine ⟨create_inv i hck hv hf, ⟨_, rfl⟩, rfl, ?_⟩
      unfold Stands
      have hz : ¬ (k = zero c ∧ c.startCoord ≠ zero c) := by
        rintro ⟨h, _⟩
        exact find_none i hf i.goal h.symm
      rw [if_neg (by rintro (h | h); exact hg h; exact hz h)]
      refine ⟨?_, ⟨e.table.length, k, (c.endCell k).1, (c.endCell k).2⟩, ?_, rfl⟩
      · have := (List.getElem?_eq_some_iff.mp i.goal).1
        show e.table.length ≠ 1
        omega
      · show (e.table ++ [_])[e.table.length]? = _
        simp

theorem succId_spec (ok : CfgOk c) (hne : c.links ≠ []) (fine : FineSteps c) {e : Env K} (i : EInv c e) (hs : Canon c c.startCoord) (vs : Valid c c.startCoord)
    {n : Nat} {x : Entry} (hn : n ≠ goalId) (hx : e.table[n]? = some x) {k : List Nat} (ht : Turned c.links x.coord k) (hv : Valid c k) :
    EInv c (e.succId x k).1 ∧ e.table <+: (e.succId x k).1.table ∧ (e.succId x k).1.heur = e.heur ∧ Stands c (e.succId x k).1 (e.succId x k).2 k := by
  obtain ⟨hcx, hvx, hex⟩ := entry_ok i hs vs hn hx
  have hck : Canon c k := Turned.canon ok.vals hcx ht
  have near : c.endCell k = (c.gx, c.gy) → c.nearGoal x = true := by
    intro h
    have := endCell_turned ok hne fine hcx ht hvx hv
    rw [h, ← hex] at this
    simp only [abs_le] at this
    unfold Cfg.nearGoal
    simp only [Bool.or_eq_true, decide_eq_true_eq]
    left; omega
  have e1 : e.succId x k = e.randId k := by
    unfold Env.succId Env.randId
    rw [i.cfg]
    by_cases hg : c.endCell k = (c.gx, c.gy)
    · rw [if_pos ⟨near hg, hg⟩, if_pos hg]
    · rw [if_neg (fun h => hg h.2), if_neg hg]
      cases e.find k <;> rfl
  rw [e1]
  exact randId_spec i hck hv

theorem cost_valid (ok : CfgOk c) {a b : List Nat} (ha : Valid c a) (hb : Valid c b) : c.cost a b = .ok 1 := by
  unfold Cfg.cost
  rw [(isValid_true ok ha.1).mpr ha, (isValid_true ok hb.1).mpr hb]

open Classical in
theorem succLoop_spec (ok : CfgOk c) (hne : c.links ≠ []) (fine : FineSteps c) (hs : Canon c c.startCoord) (vs : Valid c c.startCoord)
    {n : Nat} {x : Entry} (hn : n ≠ goalId) : ∀ (ks : List (List Nat)) {e : Env K} (acc : List (Nat × Nat)), EInv c e → e.table[n]? = some x → (∀ k ∈ ks, Turned c.links x.coord k) →
    ∃ e' l, Env.succLoop x ks e acc = .ok (e', acc ++ l) ∧ EInv c e' ∧ e.table <+: e'.table ∧ e'.heur = e.heur ∧
      List.Forall₂ (fun k p => Stands c e' p.1 k ∧ p.2 = 1) (ks.filter (fun k => decide (Valid c k))) l := by
  intro ks
  induction ks with
  | nil => intro e acc i _ _; exact ⟨e, [], by simp [Env.succLoop], i, List.prefix_refl _, rfl, .nil⟩
  | cons k ks ih =>
    intro e acc i hx ht
    have htk := ht k (List.mem_cons_self ..)
    obtain ⟨hcx, hvx, hex⟩ := entry_ok i hs vs hn hx
    have hck : Canon c k := Turned.canon ok.vals hcx htk
    unfold Env.succLoop
    rw [i.cfg]
    by_cases hv : Valid c k
    · rw [(isValid_true ok (Canon.isConf hck)).mpr hv]
      dsimp only
      rw [cost_valid ok hvx hv]
      dsimp only
      obtain ⟨i1, p1, hh1, s1⟩ := succId_spec ok hne fine i hs vs hn hx htk hv
      have hx1 : (e.succId x k).1.table[n]? = some x := by
        obtain ⟨t, ht⟩ := p1
        rw [← ht, List.getElem?_append_left (List.getElem?_eq_some_iff.mp hx).1]; exact hx
      obtain ⟨e', l, h1, h2, h3, hh, h4⟩ := ih (acc ++ [((e.succId x k).2, 1)]) i1 hx1 (fun k h => ht k (List.mem_cons_of_mem _ h))
      refine ⟨e', ((e.succId x k).2, 1) :: l, ?_, h2, p1.trans h3, hh.trans hh1, ?_⟩
      · rw [h1]; simp
      · rw [List.filter_cons_of_pos (by simp [hv])]
        exact .cons ⟨s1.mono h3, rfl⟩ h4
    · rw [(isValid_false ok (Canon.isConf hck)).mpr hv]
      dsimp only
      obtain ⟨e', l, h1, h2, h3, hh, h4⟩ := ih acc i hx (fun k h => ht k (List.mem_cons_of_mem _ h))
      refine ⟨e', l, h1, h2, h3, hh, ?_⟩
      rw [List.filter_cons_of_neg (by simp [hv])]
      exact h4

open Classical in
theorem getSuccs_spec (ok : CfgOk c) (hne : c.links ≠ []) (fine : FineSteps c) (hs : Canon c c.startCoord) (vs : Valid c c.startCoord)
    {e : Env K} (i : EInv c e) {n : Nat} {x : Entry} (hn : n ≠ goalId) (hx : e.table[n]? = some x) :
    ∃ e' l, e.getSuccs n = .ok (e', l) ∧ EInv c e' ∧ e.table <+: e'.table ∧ e'.heur = e.heur ∧
      List.Forall₂ (fun k p => Stands c e' p.1 k ∧ p.2 = 1) ((moves c.links x.coord).filter (fun k => decide (Valid c k))) l := by
  unfold Env.getSuccs
  rw [if_neg hn, hx]
  dsimp only
  obtain ⟨hcx, _, _⟩ := entry_ok i hs vs hn hx
  rw [i.cfg]
  obtain ⟨e', l, h1, h⟩ := succLoop_spec ok hne fine hs vs hn (moves c.links x.coord) (e := e) [] i hx (fun k hk => (mem_moves ok.vals hcx).mp hk)
  exact ⟨e', l, by simpa using h1, h⟩

theorem startCoord_isConf : IsConf c c.startCoord := by
  unfold IsConf Cfg.startCoord; simp

theorem two_bins (f : List Nat → Nat) (x y : Entry) (b : Nat) :
    upd (upd (fun _ => ([] : List Entry)) (f x.coord) ([] ++ [x])) (f y.coord) (upd (fun _ => ([] : List Entry)) (f x.coord) ([] ++ [x]) (f y.coord) ++ [y]) b =
      (([] ++ [x]) ++ [y]).filter (fun z => decide (f z.coord = b)) := by
  simp only [List.nil_append, List.cons_append, upd]
  by_cases h1 : f x.coord = b <;> by_cases h2 : f y.coord = b
  · rw [List.filter_cons_of_pos (by simp [h1]), List.filter_cons_of_pos (by simp [h2]), h1, h2]; simp
  · rw [List.filter_cons_of_pos (by simp [h1]), List.filter_cons_of_neg (by simp [h2]), if_neg (fun h => h2 h.symm), if_pos h1.symm]; simp
  · rw [List.filter_cons_of_neg (by simp [h1]), List.filter_cons_of_pos (by simp [h2]), if_pos h2.symm, if_neg (fun h => h1 (h.symm.trans h2))]; simp
  · rw [List.filter_cons_of_neg (by simp [h1]), List.filter_cons_of_neg (by simp [h2]), if_neg (fun h => h2 h.symm), if_neg (fun h => h1 h.symm)]; simp

attribute [local irreducible] hashBin in
/-- tables after initialisation -/
theorem initTables_inv (ok : CfgOk c) : (Valid c c.startCoord ∧ InMap c (c.gx, c.gy) → ∃ e, c.initTables = .ok (some e) ∧ ∀ h, EInv c { e with heur := h }) ∧
    (¬(Valid c c.startCoord ∧ InMap c (c.gx, c.gy)) → c.initTables = .ok none) := by
  unfold Cfg.initTables
  dsimp only
  obtain ⟨v, ev, hv⟩ := isValid_spec ok (startCoord_isConf (c := c))
  rw [ev]
  dsimp only
  constructor
  · rintro ⟨h1, h2⟩
    have h3 := h2.1
    have h4 := h2.2
    simp only at h3 h4
    rw [if_neg (by rw [hv.mpr h1]; simp; omega)]
    refine ⟨_, rfl, fun h => ?_⟩
    unfold Env.create
    constructor
    · rfl
    · intro j x hx
      match j, hx with
      | 0, hx => simp at hx; rw [← hx]
      | 1, hx => simp at hx; rw [← hx]
      | (j + 2), hx => simp at hx
    · intro b
      exact two_bins hashBin ⟨0, c.startCoord, (c.endCell c.startCoord).1, (c.endCell c.startCoord).2⟩ ⟨1, c.links.map fun _ => 0, c.gx, c.gy⟩ b
    · rfl
    · rfl
    · intro j x h2 hx
      match j, hx with
      | (j + 2), hx => simp at hx
    · intro a b x y hx hy _
      right
      have := (List.getElem?_eq_some_iff.mp hx).1
      have := (List.getElem?_eq_some_iff.mp hy).1
      simp at *
      omega
  · intro h
    rw [if_pos]
    by_cases h1 : Valid c c.startCoord
    · right
      have : ¬ InMap c (c.gx, c.gy) := fun h' => h ⟨h1, h'⟩
      unfold InMap at this
      simp only at this
      omega
    · left
      cases v with
      | false => rfl
      | true => exact absurd (hv.mp rfl) h1

end Sbpl.ArmPr
