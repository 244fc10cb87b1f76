import Verif.Proofs.RobArmHeur
import Verif.Props.Utils
/-! # Validity of configurations of the robot arm -/
set_option linter.unusedSectionVars false

namespace Sbpl.ArmPr
open RobArm ArmSpec

variable {K : Type} [Field K] [LinearOrder K] [IsStrictOrderedRing K] [FloorRing K] {c : Cfg K}

theorem floor_iff {x cell : K} (hc : 0 < cell) {i : Int} : ⌊x / cell⌋ = i ↔ (i : K) * cell ≤ x ∧ x < (i + 1) * cell := by
  rw [Int.floor_eq_iff, le_div_iff₀ hc, div_lt_iff₀ hc]

theorem toCell_in {x cell : K} {n : Nat} (hc : 0 < cell) (h0 : 0 ≤ x) (h1 : x < n * cell) (h16 : n ≤ 65536) :
    toCell x cell n < n ∧ (toCell x cell n : K) * cell ≤ x ∧ x < (toCell x cell n + 1) * cell := by
  have hq : 0 ≤ x / cell := div_nonneg h0 hc.le
  have f0 : 0 ≤ ⌊x / cell⌋ := Int.floor_nonneg.mpr hq
  have f1 : ⌊x / cell⌋ < n := by
    rw [Int.floor_lt, div_lt_iff₀ hc]
    exact_mod_cast h1
  have e : toCell x cell n = ⌊x / cell⌋.toNat := by
    unfold toCell
    dsimp only
    rw [if_neg (not_lt.mpr h0)]
    have : ctrunc (x / cell) = ⌊x / cell⌋ := by unfold ctrunc; rw [if_pos hq]
    rw [this]
    have : u16 ⌊x / cell⌋ = ⌊x / cell⌋.toNat := by unfold u16; omega
    rw [this, if_neg (by omega)]
  have e' : ((toCell x cell n : Nat) : Int) = ⌊x / cell⌋ := by rw [e]; omega
  have := (floor_iff hc (x := x) (i := (toCell x cell n : Nat))).mp e'.symm
  refine ⟨by omega, ?_, ?_⟩
  · exact_mod_cast this.1
  · exact_mod_cast this.2

theorem toCell_lt {x cell : K} {n : Nat} (h1 : 1 ≤ n) (h16 : n ≤ 65536) : toCell x cell n < n := by
  unfold toCell
  dsimp only
  generalize (if x < 0 then 0 else u16 (ctrunc (x / cell))) = v
  split
  · unfold u16; omega
  · omega

theorem inCell_unique {x cell : K} (hc : 0 < cell) {i j : Nat} (hi : (i : K) * cell ≤ x ∧ x < (i + 1) * cell) (hj : (j : K) * cell ≤ x ∧ x < (j + 1) * cell) : i = j := by
  have h1 := (floor_iff hc (x := x) (i := i)).mpr (by exact_mod_cast hi)
  have h2 := (floor_iff hc (x := x) (i := j)).mpr (by exact_mod_cast hj)
  omega

theorem pointIn_unique (ok : CfgOk c) {x : K × K} {p q : Nat × Nat} (hp : PointIn c x p) (hq : PointIn c x q) : p = q :=
  Prod.ext (inCell_unique ok.cell ⟨hp.1, hp.2.1⟩ ⟨hq.1, hq.2.1⟩) (inCell_unique ok.cell hp.2.2 hq.2.2)

theorem outside_iff (ok : CfgOk c) {x : K × K} : c.outside x = false ↔ 0 ≤ x.1 ∧ x.1 < c.W * c.cell ∧ 0 ≤ x.2 ∧ x.2 < c.H * c.cell := by
  unfold Cfg.outside
  rw [ok.w, ok.h]
  simp only [Bool.or_eq_false_iff, decide_eq_false_iff_not, not_lt, ge_iff_le, not_le]
  tauto

theorem inside_cell (ok : CfgOk c) {x : K × K} (h : c.outside x = false) : InMap c (c.xy2cell x) ∧ PointIn c x (c.xy2cell x) := by
  rw [outside_iff ok] at h
  have h1 := toCell_in ok.cell h.1 h.2.1 ok.w16
  have h2 := toCell_in ok.cell h.2.2.1 h.2.2.2 ok.h16
  exact ⟨⟨h1.1, h2.1⟩, h1.2.1, h1.2.2, h2.2.1, h2.2.2⟩

theorem inside_of_cell (ok : CfgOk c) {x : K × K} {p : Nat × Nat} (hm : InMap c p) (h : PointIn c x p) : c.outside x = false := by
  rw [outside_iff ok]
  obtain ⟨h1, h2, h3, h4⟩ := h
  have hc := ok.cell
  have e : ∀ {i n : Nat}, i < n → ((i : K) + 1) * c.cell ≤ n * c.cell := by
    intro i n h
    apply mul_le_mul_of_nonneg_right _ hc.le
    exact_mod_cast h
  have z : ∀ i : Nat, 0 ≤ (i : K) * c.cell := fun i => mul_nonneg (Nat.cast_nonneg i) hc.le
  exact ⟨(z _).trans h1, h2.trans_le (e hm.1), (z _).trans h3, h4.trans_le (e hm.2)⟩

theorem segLoop_line : ∀ (n : Nat) (b : Utils.Bres) {l : List (Int × Int)}, Utils.linePoints n b = some l →
    (∀ q ∈ l, ∃ m : Nat × Nat, q = ((m.1 : Int), (m.2 : Int)) ∧ InMap c m) →
    ∃ v, c.segLoop n b = .ok v ∧ (v = true ↔ ∀ q ∈ l, ∃ m : Nat × Nat, q = ((m.1 : Int), (m.2 : Int)) ∧ InMap c m ∧ Free c m) := by
  intro n
  induction n with
  | zero => intro b l h; cases h
  | succ n ih =>
    intro b l h hm
    unfold Utils.linePoints at h
    have hd : Utils.curPoint b ∈ l := by
      cases hn : Utils.nextPoint b with
      | none => rw [hn] at h; cases h; simp
      | some b' =>
        rw [hn] at h
        dsimp only at h
        cases hl : Utils.linePoints n b' with
        | none => rw [hl] at h; cases h
        | some l' => rw [hl] at h; cases h; simp
    obtain ⟨m, em, hmm⟩ := hm _ hd
    have hr : c.read (Utils.curPoint b).1 (Utils.curPoint b).2 = .ok (c.grid m.1 m.2) := by
      unfold Cfg.read
      rw [em]
      have h1 := hmm.1
      have h2 := hmm.2
      rw [if_pos ⟨by simp, by simp only; omega, by simp, by simp only; omega⟩]
      simp
    have hfree : (∃ m : Nat × Nat, Utils.curPoint b = ((m.1 : Int), (m.2 : Int)) ∧ InMap c m ∧ Free c m) ↔ c.grid m.1 m.2 ≠ 1 := by
      constructor
      · rintro ⟨m', e', _, hf⟩
        rw [em] at e'
        have : m = m' := by
          simp only [Prod.mk.injEq] at e'
          exact Prod.ext (by omega) (by omega)
        rw [this]; exact hf
      · intro hf; exact ⟨m, em, hmm, hf⟩
    unfold Cfg.segLoop
    rw [hr]
    dsimp only
    by_cases h1 : c.grid m.1 m.2 = 1
    · rw [if_pos h1]
      refine ⟨false, rfl, ?_⟩
      constructor
      · intro h; cases h
      · intro h; exact absurd h1 (hfree.mp (h _ hd))
    · rw [if_neg h1]
      cases hn : Utils.nextPoint b with
      | none =>
        rw [hn] at h
        cases h
        refine ⟨true, rfl, ?_⟩
        simp only [true_iff]
        intro q hq
        have : q = Utils.curPoint b := by simpa using hq
        rw [this]; exact hfree.mpr h1
      | some b' =>
        rw [hn] at h
        dsimp only at h
        cases hl : Utils.linePoints n b' with
        | none => rw [hl] at h; cases h
        | some l' =>
          rw [hl] at h
          cases h
          obtain ⟨v, ev, hv⟩ := ih b' hl (fun q hq => hm q (List.mem_cons_of_mem _ hq))
          refine ⟨v, ev, hv.trans ?_⟩
          constructor
          · intro h q hq
            rcases List.mem_cons.mp hq with rfl | h'
            · exact hfree.mpr h1
            · exact h q h'
          · intro h q hq; exact h q (List.mem_cons_of_mem _ hq)

/-- the line between two cells of the map stays in the map -/
theorem line_inMap {a b : Nat × Nat} (ha : InMap c a) (hb : InMap c b) :
    ∃ l, Utils.line (c.W + c.H + 1) ((a.1 : Int), (a.2 : Int)) ((b.1 : Int), (b.2 : Int)) = some l ∧
      UtilsSpec.DigitalLine ((a.1 : Int), (a.2 : Int)) ((b.1 : Int), (b.2 : Int)) l ∧ ∀ q ∈ l, ∃ m : Nat × Nat, q = ((m.1 : Int), (m.2 : Int)) ∧ InMap c m := by
  obtain ⟨l, h, d⟩ := UtilsProps.line_digital ((a.1 : Int), (a.2 : Int)) ((b.1 : Int), (b.2 : Int))
  have ha1 := ha.1; have ha2 := ha.2; have hb1 := hb.1; have hb2 := hb.2
  refine ⟨l, h _ (by simp only; omega), d, ?_⟩
  intro q hq
  obtain ⟨h1, h2, h3, h4⟩ := d.box q hq
  simp only at h1 h2 h3 h4
  refine ⟨(q.1.toNat, q.2.toNat), Prod.ext (by simp only; omega) (by simp only; omega), by simp only; omega, by simp only; omega⟩

theorem validSegment_spec (ok : CfgOk c) (p q : K × K) : ∃ v, c.validSegment p q = .ok v ∧ (v = true ↔ Clear c (p, q)) := by
  unfold Cfg.validSegment
  by_cases h : c.outside p = true ∨ c.outside q = true
  · rw [if_pos h]
    refine ⟨false, rfl, ?_⟩
    constructor
    · intro h; cases h
    · rintro ⟨a, b, l, ha, hb, pa, pb, _⟩
      rw [inside_of_cell ok ha pa, inside_of_cell ok hb pb] at h
      simp at h
  · rw [if_neg h]
    simp only [not_or, Bool.not_eq_true] at h
    obtain ⟨ma, pa⟩ := inside_cell ok h.1
    obtain ⟨mb, pb⟩ := inside_cell ok h.2
    obtain ⟨l, hl, _, hm⟩ := line_inMap ma mb
    dsimp only
    obtain ⟨v, ev, hv⟩ := segLoop_line (c := c) _ _ hl hm
    refine ⟨v, ev, hv.trans ?_⟩
    constructor
    · intro hf; exact ⟨_, _, l, ma, mb, pa, pb, hl, hf⟩
    · rintro ⟨a, b, l', ma', mb', pa', pb', hl', hf⟩
      rw [pointIn_unique ok pa' pa, pointIn_unique ok pb' pb] at hl'
      rw [hl] at hl'
      cases hl'
      exact hf

theorem validFrom_spec (ok : CfgOk c) : ∀ (ls : List (Link K)) (ks : List Nat) (p : K × K),
    ∃ v, c.validFrom ls ks p = .ok v ∧ (v = true ↔ ∀ s ∈ segments ls ks p, Clear c s) := by
  intro ls
  induction ls with
  | nil => intro ks p; exact ⟨true, by simp [Cfg.validFrom], by simp [segments]⟩
  | cons l ls ih =>
    intro ks p
    cases ks with
    | nil => exact ⟨true, by simp [Cfg.validFrom], by simp [segments]⟩
    | cons k ks =>
      unfold Cfg.validFrom
      obtain ⟨v, ev, hv⟩ := validSegment_spec ok p (l.tip k p)
      rw [ev]
      cases v with
      | false =>
        refine ⟨false, rfl, ?_⟩
        constructor
        · intro h; cases h
        · intro h
          exact hv.mpr (h _ (by unfold segments; exact List.mem_cons_self ..))
      | true =>
        dsimp only
        obtain ⟨v', ev', hv'⟩ := ih ks (l.tip k p)
        refine ⟨v', ev', hv'.trans ?_⟩
        have := hv.mp rfl
        constructor
        · intro h s hs
          unfold segments at hs
          rcases List.mem_cons.mp hs with rfl | hs
          · exact this
          · exact h s hs
        · intro h s hs
          exact h s (by unfold segments; exact List.mem_cons_of_mem _ hs)

theorem isValid_spec (ok : CfgOk c) {k : List Nat} (hk : IsConf c k) : ∃ v, c.isValid k = .ok v ∧ (v = true ↔ Valid c k) := by
  obtain ⟨v, ev, hv⟩ := validFrom_spec ok c.links k c.base
  exact ⟨v, ev, hv.trans ⟨fun h => ⟨hk, h⟩, fun h => h.2⟩⟩

theorem isValid_true (ok : CfgOk c) {k : List Nat} (hk : IsConf c k) : c.isValid k = .ok true ↔ Valid c k := by
  obtain ⟨v, ev, hv⟩ := isValid_spec ok hk
  rw [ev, ← hv]
  simp

theorem isValid_false (ok : CfgOk c) {k : List Nat} (hk : IsConf c k) : c.isValid k = .ok false ↔ ¬ Valid c k := by
  obtain ⟨v, ev, hv⟩ := isValid_spec ok hk
  rw [ev, ← hv]
  simp

theorem endPos_eq : ∀ (ls : List (Link K)) (ks : List Nat) (p : K × K), endPos ls ks p = (((segments ls ks p).map Prod.snd).getLast?).getD p := by
  intro ls
  induction ls with
  | nil => intro ks p; simp [endPos, segments]
  | cons l ls ih =>
    intro ks p
    cases ks with
    | nil => simp [endPos, segments]
    | cons k ks =>
      unfold endPos segments
      rw [ih ks (l.tip k p)]
      show _ = (((_ :: (segments ls ks (l.tip k p))).map Prod.snd).getLast?).getD p
      rw [List.map_cons, List.getLast?_cons]
      rfl

theorem endPos_effector (k : List Nat) : endPos c.links k c.base = effector c k := endPos_eq _ _ _

/-- the end effector of a valid configuration is in a free cell of the map -/
theorem endCell_valid (ok : CfgOk c) (hne : c.links ≠ []) {k : List Nat} (h : Valid c k) :
    InMap c (c.endCell k) ∧ Free c (c.endCell k) ∧ PointIn c (effector c k) (c.endCell k) := by
  have hs : segments c.links k c.base ≠ [] := by
    have h1 := h.1
    unfold IsConf at h1
    cases hl : c.links with
    | nil => exact absurd hl hne
    | cons l ls =>
      cases k with
      | nil => rw [hl] at h1; simp at h1
      | cons a ks => unfold segments; simp
  obtain ⟨s, hlast⟩ : ∃ s, (segments c.links k c.base).getLast? = some s := by
    cases h : (segments c.links k c.base).getLast? with
    | none => rw [List.getLast?_eq_none_iff] at h; exact absurd h hs
    | some s => exact ⟨s, rfl⟩
  have he : effector c k = s.2 := by
    unfold effector
    rw [List.getLast?_map, hlast]
    rfl
  obtain ⟨a, b, l, ma, mb, pa, pb, hl, hf⟩ := h.2 s (List.mem_of_getLast? hlast)
  have e : c.endCell k = b := by
    unfold Cfg.endCell
    rw [endPos_effector, he]
    exact pointIn_unique ok (inside_cell ok (inside_of_cell ok mb pb)).2 pb
  rw [e, he]
  refine ⟨mb, ?_, pb⟩
  obtain ⟨l', hl', d, _⟩ := line_inMap ma mb
  rw [hl] at hl'
  cases hl'
  obtain ⟨m, em, _, hfm⟩ := hf _ (List.mem_of_getLast? d.last)
  have : b = m := by
    simp only [Prod.mk.injEq] at em
    exact Prod.ext (by omega) (by omega)
  rw [this]; exact hfm

end Sbpl.ArmPr
