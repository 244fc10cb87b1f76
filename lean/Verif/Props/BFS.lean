import Verif.Proofs.BFS
/-!
# C08, C09, C10: the breadth-first distance computations

`fifoSize` is the constructor argument (negative: default).  `queueSize2` is the size of the ring buffer.
-/

namespace Sbpl.BFSProps
open Sbpl BFS BfsSpec

/-- a distance value that is never too small: -1, or the length of some walk from a source -/
def NotBelow {α : Type} (adj : α → α → Prop) (free src : α → Prop) (c : α) (v : Int) : Prop :=
  v = -1 ∨ ∃ n : Nat, v = n ∧ Steps adj free src c n

section generic
variable {α : Type} [DecidableEq α]

theorem steps_iff {nb : α → List α} {free : α → Bool} {cells : List α} {src : α → Prop} {adj : α → α → Prop}
    {free' : α → Prop}
    (hnb : ∀ c ∈ cells, ∀ d, d ∈ nb c ↔ adj c d) (hcl : ∀ c ∈ cells, ∀ d ∈ nb c, d ∈ cells)
    (hf : ∀ c, free c = true ↔ free' c) (hs : ∀ c, src c → c ∈ cells) {c : α} {n : Nat} :
    Steps (fun a b => b ∈ nb a) (fun c => free c = true) src c n ↔ Steps adj free' src c n := by
  constructor
  · intro h
    exact (Steps.congr (fun c => c ∈ cells) hs (fun c d hc h => hcl c hc d h) (fun c d hc h => (hnb c hc d).mp h)
      (fun c _ h => (hf c).mp h) (fun c h => h) h).2
  · intro h
    exact (Steps.congr (fun c => c ∈ cells) hs (fun c d hc h => hcl c hc d ((hnb c hc d).mpr h))
      (fun c d hc h => (hnb c hc d).mpr h) (fun c _ h => (hf c).mpr h) (fun c h => h) h).2

theorem finish_spec {nb : α → List α} {free : α → Bool} {cells : List α} {cap : Nat} {S : α → Prop} {s : St α} {l : List α}
    {adj : α → α → Prop} {free' : α → Prop}
    (hnb : ∀ c ∈ cells, ∀ d, d ∈ nb c ↔ adj c d) (hcl : ∀ c ∈ cells, ∀ d ∈ nb c, d ∈ cells)
    (hfr : ∀ c, free c = true ↔ free' c) (i : Ini cells cap S s l) {fuel : Nat}
    (hf : l.length + unl cells s.dist ≤ fuel) :
    ∃ s', computeDistances nb free fuel s = some s' ∧
      (∀ c ∈ cells, NotBelow adj free' S c (s'.dist c)) ∧
      (s'.rej = false → ∀ c ∈ cells, IsDist adj free' S c (s'.dist c)) ∧
      (l.length + unl cells s.dist ≤ cap → s'.rej = s.rej) := by
  obtain ⟨s', h1, _, h3, h4, h5, h6⟩ := finish_generic (free := free) hcl i hf
  refine ⟨s', h1, ?_, ?_, h6⟩
  · intro c hc
    rcases h3 c hc with h | ⟨n, e, h⟩
    · exact Or.inl h
    · exact Or.inr ⟨n, e, (steps_iff hnb hcl hfr i.sub).mp h⟩
  · intro hr c hc
    rcases h4 hr c hc with ⟨n, e, h, hm⟩ | ⟨e, h⟩
    · exact Or.inl ⟨n, e, (steps_iff hnb hcl hfr i.sub).mp h, fun m hm' => hm m ((steps_iff hnb hcl hfr i.sub).mpr hm')⟩
    · exact Or.inr ⟨e, fun m hm' => h m ((steps_iff hnb hcl hfr i.sub).mpr hm')⟩

/-! sizes never change -/
theorem insert_size (f : Fifo α) (v : α) : (f.insert v).1.size = f.size := by
  unfold Fifo.insert; split_ifs <;> rfl
theorem remove_size (f : Fifo α) : f.remove.1.size = f.size := by
  unfold Fifo.remove; split_ifs <;> rfl
theorem source_size (s : St α) (c : α) : (s.source c).q.size = s.q.size := insert_size _ _
theorem visit_size (free : α → Bool) (v : Int) (s : St α) (c : α) : (visit free v s c).q.size = s.q.size := by
  unfold visit; split_ifs
  · exact insert_size _ _
  · rfl
theorem foldl_size {g : St α → α → St α} (hg : ∀ s c, (g s c).q.size = s.q.size) (cs : List α) :
    ∀ s, (cs.foldl g s).q.size = s.q.size := by
  induction cs with
  | nil => intro s; rfl
  | cons c cs ih => intro s; rw [List.foldl_cons, ih, hg]
theorem pass_size (nb : α → List α) (free : α → Bool) (s : St α) : (pass nb free s).q.size = s.q.size := by
  unfold pass
  split
  · next q' c h =>
    rw [foldl_size (visit_size _ _)]
    show q'.size = _
    have := remove_size s.q
    rw [h] at this
    exact this
  · rfl
theorem compute_size {nb : α → List α} {free : α → Bool} (fuel : Nat) : ∀ {s s' : St α},
    computeDistances nb free fuel s = some s' → s'.q.size = s.q.size := by
  induction fuel with
  | zero => intro s s' h; unfold computeDistances at h; split_ifs at h; cases h; rfl
  | succ n ih =>
    intro s s' h
    unfold computeDistances at h
    split_ifs at h
    · cases h; rfl
    · rw [ih h, pass_size]
theorem sources_size (inB : α → Bool) (cs : List α) : ∀ s, (sources inB cs s).1.q.size = s.q.size := by
  induction cs with
  | nil => intro s; rfl
  | cons c cs ih =>
    intro s
    unfold sources
    split_ifs
    · rfl
    · rw [ih, source_size]

end generic

/-! ## 2D -/

/-- size of the ring buffer built by the constructor -/
def queueSize2 (sx sy : Nat) (fifoSize : Int) : Nat := if fifoSize < 0 then 2 * sx + 2 * sy else fifoSize.toNat

/-- `b` is an object built with the given arguments, after any history of calls -/
def Object2 (sx sy : Nat) (thresh fifoSize : Int) (b : B2) : Prop :=
  ∃ d fuel calls, (B2.mk0 sx sy thresh fifoSize d).calls fuel calls = some b

theorem call2_frame {b b' : B2} {fuel : Nat} {k : Call2} {r : Bool} (h : b.call fuel k = some (r, b')) :
    b'.sx = b.sx ∧ b'.sy = b.sy ∧ b'.thresh = b.thresh ∧ b'.st.q.size = b.st.q.size := by
  have fin : ∀ (g) (s : St (Int × Int)), s.q.size = b.st.q.size → b.finish g fuel s = some (r, b') →
      b'.sx = b.sx ∧ b'.sy = b.sy ∧ b'.thresh = b.thresh ∧ b'.st.q.size = b.st.q.size := by
    intro g s hs h
    unfold B2.finish at h
    cases hc : computeDistances (nb2 b.sx b.sy) (b.free g) fuel s with
    | none => rw [hc] at h; simp at h
    | some s' =>
      rw [hc] at h
      simp only [Option.map_some, Option.some.injEq, Prod.mk.injEq] at h
      obtain ⟨_, rfl⟩ := h
      exact ⟨rfl, rfl, rfl, by rw [← hs]; exact compute_size fuel hc⟩
  cases k with
  | fromPoint g x y =>
    simp only [B2.call, B2.fromPoint] at h
    split_ifs at h
    · simp only [Option.some.injEq, Prod.mk.injEq] at h
      obtain ⟨_, rfl⟩ := h
      exact ⟨rfl, rfl, rfl, rfl⟩
    · exact fin g _ (source_size b.clear _) h
  | fromPoints g xs ys =>
    simp only [B2.call, B2.fromPoints] at h
    split_ifs at h
    · simp only [Option.some.injEq, Prod.mk.injEq] at h
      obtain ⟨_, rfl⟩ := h
      exact ⟨rfl, rfl, rfl, rfl⟩
    · have hs := sources_size (inB2 b.sx b.sy) (xs.zip ys) b.clear
      split at h
      · next s e =>
        simp only [Option.some.injEq, Prod.mk.injEq] at h
        obtain ⟨_, rfl⟩ := h
        rw [e] at hs
        exact ⟨rfl, rfl, rfl, hs⟩
      · next s e =>
        rw [e] at hs
        exact fin g s hs h
  | fromObs g =>
    simp only [B2.call, B2.fromObs] at h
    refine fin g _ ?_ h
    rw [foldl_size]
    · rfl
    · intro s c
      split_ifs
      · exact source_size _ _
      · rfl

theorem object2_frame {sx sy : Nat} {thresh fifoSize : Int} {b : B2} (h : Object2 sx sy thresh fifoSize b) :
    b.sx = sx ∧ b.sy = sy ∧ b.thresh = thresh ∧ b.st.q.size = queueSize2 sx sy fifoSize := by
  obtain ⟨d, fuel, calls, h⟩ := h
  have key : ∀ (calls : List Call2) (b0 b : B2), b0.calls fuel calls = some b →
      b.sx = b0.sx ∧ b.sy = b0.sy ∧ b.thresh = b0.thresh ∧ b.st.q.size = b0.st.q.size := by
    intro calls
    induction calls with
    | nil => intro b0 b h; simp only [B2.calls, Option.some.injEq] at h; subst h; exact ⟨rfl, rfl, rfl, rfl⟩
    | cons k ks ih =>
      intro b0 b h
      simp only [B2.calls] at h
      cases hk : b0.call fuel k with
      | none => rw [hk] at h; simp at h
      | some r =>
        rw [hk] at h
        simp only [Option.bind_some] at h
        have h1 := ih _ _ h
        have h2 := call2_frame (r := r.1) (b' := r.2) hk
        simp only [h1, h2, and_self]
  obtain ⟨hsx, hsy, ht, hq⟩ := key calls _ _ h
  exact ⟨hsx, hsy, ht, hq⟩

/-- the cells of the caller's grid below the threshold -/
def Free2 (grid : Int → Int → Int) (thresh : Int) (c : (Int × Int)) : Prop := grid c.1 c.2 < thresh

/-- The result of a successful call with sources `src` on `b`: for every sufficiently large number `fuel` of passes of the
main loop it terminates and returns true; afterwards no distance is below the true distance; all distances are
exact if no queue insertion was rejected during the call, which is the case if `enough`. -/
def Result2 (sx sy : Nat) (thresh : Int) (grid : Int → Int → Int) (src : (Int × Int) → Prop) (enough : Prop)
    (call : Nat → Option (Bool × B2)) : Prop :=
  ∃ N b', (∀ fuel, N ≤ fuel → call fuel = some (true, b')) ∧
    (∀ x y : Nat, In2 sx sy (x, y) →
      NotBelow (Adj2 sx sy) (Free2 grid thresh) src (x, y) (b'.getDistance x y)) ∧
    (b'.st.rej = false → ∀ x y : Nat, In2 sx sy (x, y) →
      IsDist (Adj2 sx sy) (Free2 grid thresh) src (x, y) (b'.getDistance x y)) ∧
    (enough → b'.st.rej = false)

theorem finish2 {sx sy : Nat} {thresh : Int} {b : B2} (hb : b.sx = sx ∧ b.sy = sy ∧ b.thresh = thresh)
    {cap : Nat} {S : (Int × Int) → Prop} {s : St (Int × Int)} {l : List (Int × Int)} (i : Ini (cells2 sx sy) cap S s l)
    (grid : Int → Int → Int) {call : Nat → Option (Bool × B2)} (hc : ∀ fuel, call fuel = b.finish grid fuel s) (enough : Prop)
    (he : enough → l.length + unl (cells2 sx sy) s.dist ≤ cap ∧ s.rej = false) :
    Result2 sx sy thresh grid S enough call := by
  obtain ⟨rfl, rfl, rfl⟩ := hb
  have hnb : ∀ c ∈ cells2 b.sx b.sy, ∀ d, d ∈ nb2 b.sx b.sy c ↔ Adj2 b.sx b.sy c d :=
    fun c hc d => mem_nb2 (mem_cells2.mp hc)
  have hfr : ∀ c, b.free grid c = true ↔ Free2 grid b.thresh c := by
    intro c; simp [B2.free, Free2]
  have hcl := nb2_closed (sx := b.sx) (sy := b.sy)
  obtain ⟨s0, hs0, h1, h2, h3⟩ := finish_spec hnb hcl hfr i (Nat.le_refl _)
  refine ⟨l.length + unl (cells2 b.sx b.sy) s.dist, { b with st := s0 }, ?_, ?_, ?_, ?_⟩
  · intro fuel hf
    obtain ⟨s', hs', -⟩ := finish_spec hnb hcl hfr i hf
    have mono : ∀ n m (t t' : St (Int × Int)), n ≤ m → computeDistances (nb2 b.sx b.sy) (b.free grid) n t = some t' →
        computeDistances (nb2 b.sx b.sy) (b.free grid) m t = some t' := by
      intro n
      induction n with
      | zero =>
        intro m t t' _ h
        unfold computeDistances at h
        split_ifs at h with h0
        cases m <;> simp [computeDistances, h0, h]
      | succ n ih =>
        intro m t t' hm h
        obtain ⟨m, rfl⟩ : ∃ k, m = k + 1 := ⟨m - 1, by omega⟩
        unfold computeDistances at h ⊢
        split_ifs at h ⊢
        · exact h
        · exact ih m _ _ (by omega) h
    rw [hc]
    unfold B2.finish
    rw [mono _ _ _ _ hf hs0]
    rfl
  · intro x y hin
    exact h1 _ (mem_cells2.mpr hin)
  · intro hr x y hin
    exact h2 hr _ (mem_cells2.mpr hin)
  · intro h
    show s0.rej = false
    rw [h3 (he h).1, (he h).2]

theorem ini2 (b : B2) (h : 1 ≤ b.st.q.size) :
    Ini (cells2 b.sx b.sy) b.st.q.size (fun _ => False) b.clear [] := Ini.clear rfl h

/-- **C08** `compute_distance_from_point`: on every object with a non-empty ring buffer and after every history, for every grid and
every point of the map: see `Result2`.  A ring buffer larger than the map is enough for exact distances. -/
theorem fromPoint2 {sx sy : Nat} {thresh fifoSize : Int} {b : B2} (ho : Object2 sx sy thresh fifoSize b)
    (hq : 1 ≤ queueSize2 sx sy fifoSize) (grid : Int → Int → Int) (x y : Int) (hin : In2 sx sy (x, y)) :
    Result2 sx sy thresh grid (fun c => c = (x, y)) (sx * sy < queueSize2 sx sy fifoSize)
      (fun fuel => b.fromPoint grid x y fuel) := by
  obtain ⟨hsx, hsy, ht, hs⟩ := object2_frame ho
  have i0 := ini2 b (by omega)
  rw [hsx, hsy] at i0
  have i00 := i0
  obtain ⟨l, i, _, n, r⟩ := i0.source (mem_cells2.mpr hin)
  have i' : Ini (cells2 sx sy) b.st.q.size (fun c => c = (x, y)) (b.clear.source (x, y)) l := by
    simpa using i
  refine finish2 ⟨hsx, hsy, ht⟩ i' grid ?_ _ ?_
  · intro fuel
    have hb : inB2 b.sx b.sy (x, y) = true := by rw [hsx, hsy]; exact inB2_iff.mpr hin
    simp [B2.fromPoint, hb]
  · intro hlt
    have hu := unl_all (cells2 sx sy) b.clear.dist
    rw [length_cells2] at hu
    have n := n (by simp)
    simp only [List.length_nil] at n r
    have hpos : 1 ≤ sx * sy := by
      have hm := mem_cells2.mpr hin
      rw [← length_cells2]
      exact List.length_pos_of_mem hm
    refine ⟨by rw [hs]; omega, ?_⟩
    rw [r (by rw [hs]; omega)]
    rfl

/-- A point outside the map: the call returns false and changes nothing. -/
theorem fromPoint2_outside {sx sy : Nat} {thresh fifoSize : Int} {b : B2} (ho : Object2 sx sy thresh fifoSize b)
    (grid : Int → Int → Int) (x y : Int) (hin : ¬ In2 sx sy (x, y)) (fuel : Nat) :
    b.fromPoint grid x y fuel = some (false, b) := by
  obtain ⟨hsx, hsy, ht, hs⟩ := object2_frame ho
  have hb : inB2 b.sx b.sy (x, y) = false := by
    rw [hsx, hsy, Bool.eq_false_iff]
    intro h
    exact hin (inB2_iff.mp h)
  simp [B2.fromPoint, hb]

/-- **C09** `compute_distance_from_points` for points of the map (repetitions allowed). -/
theorem fromPoints2 {sx sy : Nat} {thresh fifoSize : Int} {b : B2} (ho : Object2 sx sy thresh fifoSize b)
    (hq : 1 ≤ queueSize2 sx sy fifoSize) (grid : Int → Int → Int) (xs ys : List Int) (hl : xs.length = ys.length)
    (hin : ∀ c ∈ xs.zip ys, In2 sx sy c) :
    Result2 sx sy thresh grid (fun c => c ∈ xs.zip ys) (sx * sy + xs.length < queueSize2 sx sy fifoSize)
      (fun fuel => b.fromPoints grid xs ys fuel) := by
  obtain ⟨hsx, hsy, ht, hs⟩ := object2_frame ho
  have i0 := ini2 b (by omega)
  have hmem : ∀ c, inB2 b.sx b.sy c = true → c ∈ cells2 b.sx b.sy := fun c h => mem_cells2.mpr (inB2_iff.mp h)
  obtain ⟨l, S', i, hall, hS, n, r⟩ := Ini.sources hmem (xs.zip ys) _ _ _ i0
  have hall' : (xs.zip ys).all (inB2 b.sx b.sy) = true := by
    rw [List.all_eq_true]
    intro c hc
    rw [hsx, hsy]; exact inB2_iff.mpr (hin c hc)
  rw [hall'] at hall
  have hS' : S' = fun c => c ∈ xs.zip ys := by
    funext c
    apply propext
    rw [hS hall c]; simp
  subst hS'
  rw [hsx, hsy] at i
  refine finish2 ⟨hsx, hsy, ht⟩ i grid ?_ _ ?_
  · intro fuel
    have e : sources (inB2 b.sx b.sy) (xs.zip ys) b.clear = ((sources (inB2 b.sx b.sy) (xs.zip ys) b.clear).1, true) := by
      rw [← hall]
    simp only [B2.fromPoints]
    rw [if_neg (by omega), e]
    simp only [hsx, hsy]
  · intro hlt
    have hu := unl_all (cells2 b.sx b.sy) b.clear.dist
    rw [length_cells2] at hu
    simp only [List.length_nil, List.length_zip] at n r
    rw [hsx, hsy] at hu n r
    have r := r (by rw [hsx, hsy] at hall; exact hall) (by rw [hs]; omega)
    refine ⟨by rw [hs]; omega, ?_⟩
    rw [r]
    rfl

/-- **C09** `compute_distance_from_obs`: distances from the cells at or above the threshold. -/
theorem fromObs2 {sx sy : Nat} {thresh fifoSize : Int} {b : B2} (ho : Object2 sx sy thresh fifoSize b)
    (hq : 1 ≤ queueSize2 sx sy fifoSize) (grid : Int → Int → Int) :
    Result2 sx sy thresh grid (fun c => In2 sx sy c ∧ ¬ Free2 grid thresh c)
      (sx * sy < queueSize2 sx sy fifoSize) (fun fuel => b.fromObs grid fuel) := by
  obtain ⟨hsx, hsy, ht, hs⟩ := object2_frame ho
  have i0 := ini2 b (by omega)
  rw [hsx, hsy] at i0
  obtain ⟨l, i, n, r⟩ := Ini.obs (P := fun c => grid c.1 c.2 ≥ thresh) (cells2 sx sy) _ _ _ i0 (fun c h => h)
    (nodup_cells2 sx sy) (by simp)
  have hS : (fun c => False ∨ (c ∈ cells2 sx sy ∧ grid c.1 c.2 ≥ thresh)) =
      fun c => In2 sx sy c ∧ ¬ Free2 grid thresh c := by
    funext c
    apply propext
    simp only [Free2, mem_cells2, false_or]
    constructor
    · rintro ⟨h1, h2⟩; exact ⟨h1, by omega⟩
    · rintro ⟨h1, h2⟩; exact ⟨h1, by omega⟩
  rw [hS] at i
  refine finish2 ⟨hsx, hsy, ht⟩ i grid ?_ _ ?_
  · intro fuel
    simp only [B2.fromObs, hsx, hsy, ht]
  · intro hlt
    have hu := unl_all (cells2 sx sy) b.clear.dist
    rw [length_cells2] at hu
    simp only [List.length_nil] at n r
    refine ⟨by rw [hs]; omega, ?_⟩
    rw [r (by rw [hs]; omega)]
    rfl

/-! ## 3D -/

/-- size of the ring buffer built by the constructor -/
def queueSize3 (sx sy sz : Nat) (fifoSize : Int) : Nat := if fifoSize < 0 then 2 * sx * sy + 2 * sx * sz + 2 * sy * sz else fifoSize.toNat

/-- `b` is an object built with the given arguments, after any history of calls -/
def Object3 (sx sy sz : Nat) (thresh fifoSize : Int) (b : B3) : Prop :=
  ∃ d fuel calls, (B3.mk0 sx sy sz thresh fifoSize d).calls fuel calls = some b

theorem call3_frame {b b' : B3} {fuel : Nat} {k : Call3} {r : Bool} (h : b.call fuel k = some (r, b')) :
    b'.sx = b.sx ∧ b'.sy = b.sy ∧ b'.sz = b.sz ∧ b'.thresh = b.thresh ∧ b'.st.q.size = b.st.q.size := by
  have fin : ∀ (g) (s : St Cell3), s.q.size = b.st.q.size → b.finish g fuel s = some (r, b') →
      b'.sx = b.sx ∧ b'.sy = b.sy ∧ b'.sz = b.sz ∧ b'.thresh = b.thresh ∧ b'.st.q.size = b.st.q.size := by
    intro g s hs h
    unfold B3.finish at h
    cases hc : computeDistances (nb3 b.sx b.sy b.sz) (b.free g) fuel s with
    | none => rw [hc] at h; simp at h
    | some s' =>
      rw [hc] at h
      simp only [Option.map_some, Option.some.injEq, Prod.mk.injEq] at h
      obtain ⟨_, rfl⟩ := h
      exact ⟨rfl, rfl, rfl, rfl, by rw [← hs]; exact compute_size fuel hc⟩
  cases k with
  | fromPoint g x y z =>
    simp only [B3.call, B3.fromPoint] at h
    split_ifs at h
    · simp only [Option.some.injEq, Prod.mk.injEq] at h
      obtain ⟨_, rfl⟩ := h
      exact ⟨rfl, rfl, rfl, rfl, rfl⟩
    · exact fin g _ (source_size b.clear _) h
  | fromPoints g xs ys zs =>
    simp only [B3.call, B3.fromPoints] at h
    split_ifs at h
    · simp only [Option.some.injEq, Prod.mk.injEq] at h
      obtain ⟨_, rfl⟩ := h
      exact ⟨rfl, rfl, rfl, rfl, rfl⟩
    · have hs := sources_size (inB3 b.sx b.sy b.sz) (xs.zip (ys.zip zs)) b.clear
      split at h
      · next s e =>
        simp only [Option.some.injEq, Prod.mk.injEq] at h
        obtain ⟨_, rfl⟩ := h
        rw [e] at hs
        exact ⟨rfl, rfl, rfl, rfl, hs⟩
      · next s e =>
        rw [e] at hs
        exact fin g s hs h
  | fromObs g =>
    simp only [B3.call, B3.fromObs] at h
    refine fin g _ ?_ h
    rw [foldl_size]
    · rfl
    · intro s c
      split_ifs
      · exact source_size _ _
      · rfl

theorem object3_frame {sx sy sz : Nat} {thresh fifoSize : Int} {b : B3} (h : Object3 sx sy sz thresh fifoSize b) :
    b.sx = sx ∧ b.sy = sy ∧ b.sz = sz ∧ b.thresh = thresh ∧ b.st.q.size = queueSize3 sx sy sz fifoSize := by
  obtain ⟨d, fuel, calls, h⟩ := h
  have key : ∀ (calls : List Call3) (b0 b : B3), b0.calls fuel calls = some b →
      b.sx = b0.sx ∧ b.sy = b0.sy ∧ b.sz = b0.sz ∧ b.thresh = b0.thresh ∧ b.st.q.size = b0.st.q.size := by
    intro calls
    induction calls with
    | nil => intro b0 b h; simp only [B3.calls, Option.some.injEq] at h; subst h; exact ⟨rfl, rfl, rfl, rfl, rfl⟩
    | cons k ks ih =>
      intro b0 b h
      simp only [B3.calls] at h
      cases hk : b0.call fuel k with
      | none => rw [hk] at h; simp at h
      | some r =>
        rw [hk] at h
        simp only [Option.bind_some] at h
        have h1 := ih _ _ h
        have h2 := call3_frame (r := r.1) (b' := r.2) hk
        simp only [h1, h2, and_self]
  obtain ⟨hsx, hsy, hsz, ht, hq⟩ := key calls _ _ h
  exact ⟨hsx, hsy, hsz, ht, hq⟩

/-- the cells of the caller's grid below the threshold -/
def Free3 (grid : Int → Int → Int → Int) (thresh : Int) (c : Cell3) : Prop := grid c.1 c.2.1 c.2.2 < thresh

/-- The result of a successful call with sources `src` on `b`: for every sufficiently large number `fuel` of passes of the
main loop it terminates and returns true; afterwards no distance is below the true distance; all distances are
exact if no queue insertion was rejected during the call, which is the case if `enough`. -/
def Result3 (sx sy sz : Nat) (thresh : Int) (grid : Int → Int → Int → Int) (src : Cell3 → Prop) (enough : Prop)
    (call : Nat → Option (Bool × B3)) : Prop :=
  ∃ N b', (∀ fuel, N ≤ fuel → call fuel = some (true, b')) ∧
    (∀ x y z : Nat, In3 sx sy sz (x, y, z) →
      NotBelow (Adj3 sx sy sz) (Free3 grid thresh) src (x, y, z) (b'.getDistance x y z)) ∧
    (b'.st.rej = false → ∀ x y z : Nat, In3 sx sy sz (x, y, z) →
      IsDist (Adj3 sx sy sz) (Free3 grid thresh) src (x, y, z) (b'.getDistance x y z)) ∧
    (enough → b'.st.rej = false)

theorem finish3 {sx sy sz : Nat} {thresh : Int} {b : B3} (hb : b.sx = sx ∧ b.sy = sy ∧ b.sz = sz ∧ b.thresh = thresh)
    {cap : Nat} {S : Cell3 → Prop} {s : St Cell3} {l : List Cell3} (i : Ini (cells3 sx sy sz) cap S s l)
    (grid : Int → Int → Int → Int) {call : Nat → Option (Bool × B3)} (hc : ∀ fuel, call fuel = b.finish grid fuel s) (enough : Prop)
    (he : enough → l.length + unl (cells3 sx sy sz) s.dist ≤ cap ∧ s.rej = false) :
    Result3 sx sy sz thresh grid S enough call := by
  obtain ⟨rfl, rfl, rfl, rfl⟩ := hb
  have hnb : ∀ c ∈ cells3 b.sx b.sy b.sz, ∀ d, d ∈ nb3 b.sx b.sy b.sz c ↔ Adj3 b.sx b.sy b.sz c d :=
    fun c hc d => mem_nb3 (mem_cells3.mp hc)
  have hfr : ∀ c, b.free grid c = true ↔ Free3 grid b.thresh c := by
    intro c; simp [B3.free, Free3]
  have hcl := nb3_closed (sx := b.sx) (sy := b.sy) (sz := b.sz)
  obtain ⟨s0, hs0, h1, h2, h3⟩ := finish_spec hnb hcl hfr i (Nat.le_refl _)
  refine ⟨l.length + unl (cells3 b.sx b.sy b.sz) s.dist, { b with st := s0 }, ?_, ?_, ?_, ?_⟩
  · intro fuel hf
    obtain ⟨s', hs', -⟩ := finish_spec hnb hcl hfr i hf
    have mono : ∀ n m (t t' : St Cell3), n ≤ m → computeDistances (nb3 b.sx b.sy b.sz) (b.free grid) n t = some t' →
        computeDistances (nb3 b.sx b.sy b.sz) (b.free grid) m t = some t' := by
      intro n
      induction n with
      | zero =>
        intro m t t' _ h
        unfold computeDistances at h
        split_ifs at h with h0
        cases m <;> simp [computeDistances, h0, h]
      | succ n ih =>
        intro m t t' hm h
        obtain ⟨m, rfl⟩ : ∃ k, m = k + 1 := ⟨m - 1, by omega⟩
        unfold computeDistances at h ⊢
        split_ifs at h ⊢
        · exact h
        · exact ih m _ _ (by omega) h
    rw [hc]
    unfold B3.finish
    rw [mono _ _ _ _ hf hs0]
    rfl
  · intro x y z hin
    exact h1 _ (mem_cells3.mpr hin)
  · intro hr x y z hin
    exact h2 hr _ (mem_cells3.mpr hin)
  · intro h
    show s0.rej = false
    rw [h3 (he h).1, (he h).2]

theorem ini3 (b : B3) (h : 1 ≤ b.st.q.size) :
    Ini (cells3 b.sx b.sy b.sz) b.st.q.size (fun _ => False) b.clear [] := Ini.clear rfl h

/-- **C10** `compute_distance_from_point`: on every object with a non-empty ring buffer and after every history, for every grid and
every point of the map: see `Result3`.  A ring buffer larger than the map is enough for exact distances. -/
theorem fromPoint3 {sx sy sz : Nat} {thresh fifoSize : Int} {b : B3} (ho : Object3 sx sy sz thresh fifoSize b)
    (hq : 1 ≤ queueSize3 sx sy sz fifoSize) (grid : Int → Int → Int → Int) (x y z : Int) (hin : In3 sx sy sz (x, y, z)) :
    Result3 sx sy sz thresh grid (fun c => c = (x, y, z)) (sx * sy * sz < queueSize3 sx sy sz fifoSize)
      (fun fuel => b.fromPoint grid x y z fuel) := by
  obtain ⟨hsx, hsy, hsz, ht, hs⟩ := object3_frame ho
  have i0 := ini3 b (by omega)
  rw [hsx, hsy, hsz] at i0
  have i00 := i0
  obtain ⟨l, i, _, n, r⟩ := i0.source (mem_cells3.mpr hin)
  have i' : Ini (cells3 sx sy sz) b.st.q.size (fun c => c = (x, y, z)) (b.clear.source (x, y, z)) l := by
    simpa using i
  refine finish3 ⟨hsx, hsy, hsz, ht⟩ i' grid ?_ _ ?_
  · intro fuel
    have hb : inB3 b.sx b.sy b.sz (x, y, z) = true := by rw [hsx, hsy, hsz]; exact inB3_iff.mpr hin
    simp [B3.fromPoint, hb]
  · intro hlt
    have hu := unl_all (cells3 sx sy sz) b.clear.dist
    rw [length_cells3] at hu
    have n := n (by simp)
    simp only [List.length_nil] at n r
    have hpos : 1 ≤ sx * sy * sz := by
      have hm := mem_cells3.mpr hin
      rw [← length_cells3]
      exact List.length_pos_of_mem hm
    refine ⟨by rw [hs]; omega, ?_⟩
    rw [r (by rw [hs]; omega)]
    rfl

/-- A point outside the map: the call returns false and changes nothing. -/
theorem fromPoint3_outside {sx sy sz : Nat} {thresh fifoSize : Int} {b : B3} (ho : Object3 sx sy sz thresh fifoSize b)
    (grid : Int → Int → Int → Int) (x y z : Int) (hin : ¬ In3 sx sy sz (x, y, z)) (fuel : Nat) :
    b.fromPoint grid x y z fuel = some (false, b) := by
  obtain ⟨hsx, hsy, hsz, ht, hs⟩ := object3_frame ho
  have hb : inB3 b.sx b.sy b.sz (x, y, z) = false := by
    rw [hsx, hsy, hsz, Bool.eq_false_iff]
    intro h
    exact hin (inB3_iff.mp h)
  simp [B3.fromPoint, hb]

/-- **C10** `compute_distance_from_points` for points of the map (repetitions allowed). -/
theorem fromPoints3 {sx sy sz : Nat} {thresh fifoSize : Int} {b : B3} (ho : Object3 sx sy sz thresh fifoSize b)
    (hq : 1 ≤ queueSize3 sx sy sz fifoSize) (grid : Int → Int → Int → Int) (xs ys zs : List Int) (hl : xs.length = ys.length ∧ xs.length = zs.length)
    (hin : ∀ c ∈ xs.zip (ys.zip zs), In3 sx sy sz c) :
    Result3 sx sy sz thresh grid (fun c => c ∈ xs.zip (ys.zip zs)) (sx * sy * sz + xs.length < queueSize3 sx sy sz fifoSize)
      (fun fuel => b.fromPoints grid xs ys zs fuel) := by
  obtain ⟨hsx, hsy, hsz, ht, hs⟩ := object3_frame ho
  have i0 := ini3 b (by omega)
  have hmem : ∀ c, inB3 b.sx b.sy b.sz c = true → c ∈ cells3 b.sx b.sy b.sz := fun c h => mem_cells3.mpr (inB3_iff.mp h)
  obtain ⟨l, S', i, hall, hS, n, r⟩ := Ini.sources hmem (xs.zip (ys.zip zs)) _ _ _ i0
  have hall' : (xs.zip (ys.zip zs)).all (inB3 b.sx b.sy b.sz) = true := by
    rw [List.all_eq_true]
    intro c hc
    rw [hsx, hsy, hsz]; exact inB3_iff.mpr (hin c hc)
  rw [hall'] at hall
  have hS' : S' = fun c => c ∈ xs.zip (ys.zip zs) := by
    funext c
    apply propext
    rw [hS hall c]; simp
  subst hS'
  rw [hsx, hsy, hsz] at i
  refine finish3 ⟨hsx, hsy, hsz, ht⟩ i grid ?_ _ ?_
  · intro fuel
    have e : sources (inB3 b.sx b.sy b.sz) (xs.zip (ys.zip zs)) b.clear = ((sources (inB3 b.sx b.sy b.sz) (xs.zip (ys.zip zs)) b.clear).1, true) := by
      rw [← hall]
    simp only [B3.fromPoints]
    rw [if_neg (by omega), e]
    simp only [hsx, hsy, hsz]
  · intro hlt
    have hu := unl_all (cells3 b.sx b.sy b.sz) b.clear.dist
    rw [length_cells3] at hu
    simp only [List.length_nil, List.length_zip] at n r
    rw [hsx, hsy, hsz] at hu n r
    have r := r (by rw [hsx, hsy, hsz] at hall; exact hall) (by rw [hs]; omega)
    refine ⟨by rw [hs]; omega, ?_⟩
    rw [r]
    rfl

/-- **C10** `compute_distance_from_obs`: distances from the cells at or above the threshold. -/
theorem fromObs3 {sx sy sz : Nat} {thresh fifoSize : Int} {b : B3} (ho : Object3 sx sy sz thresh fifoSize b)
    (hq : 1 ≤ queueSize3 sx sy sz fifoSize) (grid : Int → Int → Int → Int) :
    Result3 sx sy sz thresh grid (fun c => In3 sx sy sz c ∧ ¬ Free3 grid thresh c)
      (sx * sy * sz < queueSize3 sx sy sz fifoSize) (fun fuel => b.fromObs grid fuel) := by
  obtain ⟨hsx, hsy, hsz, ht, hs⟩ := object3_frame ho
  have i0 := ini3 b (by omega)
  rw [hsx, hsy, hsz] at i0
  obtain ⟨l, i, n, r⟩ := Ini.obs (P := fun c => grid c.1 c.2.1 c.2.2 ≥ thresh) (cells3 sx sy sz) _ _ _ i0 (fun c h => h)
    (nodup_cells3 sx sy sz) (by simp)
  have hS : (fun c => False ∨ (c ∈ cells3 sx sy sz ∧ grid c.1 c.2.1 c.2.2 ≥ thresh)) =
      fun c => In3 sx sy sz c ∧ ¬ Free3 grid thresh c := by
    funext c
    apply propext
    simp only [Free3, mem_cells3, false_or]
    constructor
    · rintro ⟨h1, h2⟩; exact ⟨h1, by omega⟩
    · rintro ⟨h1, h2⟩; exact ⟨h1, by omega⟩
  rw [hS] at i
  refine finish3 ⟨hsx, hsy, hsz, ht⟩ i grid ?_ _ ?_
  · intro fuel
    simp only [B3.fromObs, hsx, hsy, hsz, ht]
  · intro hlt
    have hu := unl_all (cells3 sx sy sz) b.clear.dist
    rw [length_cells3] at hu
    simp only [List.length_nil] at n r
    refine ⟨by rw [hs]; omega, ?_⟩
    rw [r (by rw [hs]; omega)]
    rfl

/-! ## Concrete cases -/

/-- Hypotheses are met by concrete objects: a fresh one, and one that has been used (default queue). -/
example : Object2 3 2 1 (-1) (B2.mk0 3 2 1 (-1) 7) ∧ 1 ≤ queueSize2 3 2 (-1) ∧ In2 (3 : Nat) (2 : Nat) (2, 1) :=
  ⟨⟨7, 0, [], rfl⟩, by decide, by simp [In2]⟩
example : ∃ b, Object2 3 2 1 7 b ∧ b.getDistance 2 1 = 2 ∧ 3 * 2 < queueSize2 3 2 7 := by
  refine ⟨_, ⟨7, 6, [.fromPoint (fun _ _ => 0) 0 0], rfl⟩, by decide +kernel, by decide⟩
example : ∃ b, Object3 2 2 2 1 9 b ∧ b.getDistance 1 1 1 = 1 ∧ 2 * 2 * 2 < queueSize3 2 2 2 9 := by
  refine ⟨_, ⟨7, 8, [.fromPoint (fun _ _ _ => 0) 0 0 0], rfl⟩, by decide +kernel, by decide⟩

theorem of_eval {o : Option (Bool × B2)} {x y : Nat} {v : Int}
    (h : o.map (fun r => (r.1, r.2.getDistance x y)) = some (true, v)) :
    ∃ b', o = some (true, b') ∧ b'.getDistance x y = v := by
  cases o with
  | none => simp at h
  | some r =>
    obtain ⟨r1, r2⟩ := r
    simp only [Option.map_some, Option.some.injEq, Prod.mk.injEq] at h
    exact ⟨r2, by rw [h.1], h.2⟩

/-- a map on which every cell but the corner (5,5) is an obstacle -/
def cornerMap (x y : Int) : Int := if x = 5 ∧ y = 5 then 0 else 1

/-- **C09, refuted for the default queue**: with the shipped default queue size `compute_distance_from_obs` leaves the cell
(5,5), which touches three obstacle cells, at -1. -/
theorem fromObs2_default_wrong :
    ∃ b', (B2.mk0 6 6 1 (-1) 0).fromObs cornerMap 100 = some (true, b') ∧ b'.getDistance 5 5 = -1 ∧
      Steps (Adj2 6 6) (Free2 cornerMap 1) (fun c => In2 6 6 c ∧ ¬ Free2 cornerMap 1 c) (5, 5) 1 := by
  obtain ⟨b', h1, h2⟩ := of_eval (o := (B2.mk0 6 6 1 (-1) 0).fromObs cornerMap 100) (x := 5) (y := 5) (v := -1) (by decide +kernel)
  refine ⟨b', h1, h2, ?_⟩
  · exact Steps.move (c := (4, 4)) (Steps.source ⟨by simp [In2], by simp [Free2, cornerMap]⟩)
      (by simp [Adj2, In2]) (by simp [Free2, cornerMap])

/-- obstacles of an 11 by 11 map -/
def mazeObs : List (Int × Int) := [(0, 0), (3, 0), (6, 1), (7, 1), (2, 2), (6, 2), (1, 3), (3, 3), (4, 3), (5, 3), (6, 3), (8, 3), (2, 4), (4, 4), (7, 4), (8, 4), (2, 5), (4, 5), (7, 5), (2, 6), (3, 6), (5, 6), (7, 6), (8, 6), (2, 7), (4, 7), (5, 7), (4, 8), (5, 8), (6, 8), (7, 8), (9, 8), (3, 9), (8, 9)]
def mazeMap (x y : Int) : Int := if (x, y) ∈ mazeObs then 1 else 0

/-- **C08, refuted for the default queue**: even for a single source the shipped default queue overflows: cell (5,2) of this map is
7 steps away from (5,5), but `compute_distance_from_point` reports 8. -/
theorem fromPoint2_default_wrong :
    ∃ b', (B2.mk0 11 11 1 (-1) 0).fromPoint mazeMap 5 5 200 = some (true, b') ∧ b'.getDistance 5 2 = 8 ∧
      Steps (Adj2 11 11) (Free2 mazeMap 1) (fun c => c = (5, 5)) (5, 2) 7 := by
  obtain ⟨b', h1, h2⟩ := of_eval (o := (B2.mk0 11 11 1 (-1) 0).fromPoint mazeMap 5 5 200) (x := 5) (y := 2) (v := 8) (by decide +kernel)
  refine ⟨b', h1, h2, ?_⟩
  · have s0 : Steps (Adj2 11 11) (Free2 mazeMap 1) (fun c => c = (5, 5)) (5, 5) 0 := Steps.source rfl
    have s1 := s0.move (d := (4, 6)) (by simp [Adj2, In2]) (by unfold Free2; decide)
    have s2 := s1.move (d := (3, 5)) (by simp [Adj2, In2]) (by unfold Free2; decide)
    have s3 := s2.move (d := (3, 4)) (by simp [Adj2, In2]) (by unfold Free2; decide)
    have s4 := s3.move (d := (2, 3)) (by simp [Adj2, In2]) (by unfold Free2; decide)
    have s5 := s4.move (d := (3, 2)) (by simp [Adj2, In2]) (by unfold Free2; decide)
    have s6 := s5.move (d := (4, 1)) (by simp [Adj2, In2]) (by unfold Free2; decide)
    have s7 := s6.move (d := (5, 2)) (by simp [Adj2, In2]) (by unfold Free2; decide)
    exact s7

end Sbpl.BFSProps
