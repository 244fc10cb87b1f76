import Verif.Spec.AdjList
import Mathlib.Data.List.Nodup
import Mathlib.Tactic.SplitIfs
/-! # Proofs about the adjacency-list environment -/

namespace Sbpl.Adj
open AdjSpec
variable {C : Type} [DecidableEq C]

/-! ## Lists of edges -/

/-- at most one entry per neighbour -/
def Single (l : List (Nat × Nat)) : Prop := (l.map Prod.fst).Nodup

theorem setEdge_mem {t c : Nat} : ∀ {l : List (Nat × Nat)}, Single l → ∀ j k, (j, k) ∈ setEdge l t c ↔ (j = t ∧ k = c) ∨ (j ≠ t ∧ (j, k) ∈ l)
  | [], _, j, k => by simp [setEdge]
  | p :: l, h, j, k => by
    have h' : p.1 ∉ l.map Prod.fst ∧ Single l := by unfold Single at h; rw [List.map_cons, List.nodup_cons] at h; exact h
    unfold setEdge
    split_ifs with hp
    · have hno : ∀ k', (t, k') ∉ l := fun k' hm => h'.1 (by rw [hp]; exact List.mem_map.mpr ⟨_, hm, rfl⟩)
      simp only [List.mem_cons, Prod.mk.injEq]
      constructor
      · rintro (h | h)
        · exact .inl h
        · by_cases hj : j = t
          · subst hj; exact absurd h (hno k)
          · exact .inr ⟨hj, .inr h⟩
      · rintro (h | ⟨h1, h | h⟩)
        · exact .inl h
        · rw [← h] at hp; exact absurd hp h1
        · exact .inr h
    · rw [List.mem_cons, setEdge_mem h'.2, List.mem_cons]
      constructor
      · rintro (h | h | h)
        · refine .inr ⟨?_, .inl h⟩
          rintro rfl; rw [← h] at hp; exact hp rfl
        · exact .inl h
        · exact .inr ⟨h.1, .inr h.2⟩
      · rintro (h | ⟨h1, h | h⟩)
        · exact .inr (.inl h)
        · exact .inl h
        · exact .inr (.inr ⟨h1, h⟩)

theorem setEdge_fst {t c : Nat} : ∀ {l : List (Nat × Nat)} {j : Nat}, j ∈ (setEdge l t c).map Prod.fst → j = t ∨ j ∈ l.map Prod.fst
  | [], j, h => by simp [setEdge] at h; exact .inl h
  | p :: l, j, h => by
    unfold setEdge at h
    split_ifs at h with hp
    · rw [List.map_cons, List.mem_cons] at h
      rcases h with h | h
      · exact .inl h
      · exact .inr (by rw [List.map_cons]; exact List.mem_cons_of_mem _ h)
    · rw [List.map_cons, List.mem_cons] at h
      rcases h with h | h
      · exact .inr (by simp [h])
      · rcases setEdge_fst h with h | h
        · exact .inl h
        · exact .inr (by rw [List.map_cons]; exact List.mem_cons_of_mem _ h)

theorem setEdge_single {t c : Nat} : ∀ {l : List (Nat × Nat)}, Single l → Single (setEdge l t c)
  | [], _ => by simp [setEdge, Single]
  | p :: l, h => by
    have h' : p.1 ∉ l.map Prod.fst ∧ Single l := by unfold Single at h; rw [List.map_cons, List.nodup_cons] at h; exact h
    unfold setEdge
    split_ifs with hp
    · unfold Single at *; rw [List.map_cons, List.nodup_cons]; exact ⟨by rw [← hp]; exact h'.1, h'.2⟩
    · have := setEdge_single (t := t) (c := c) h'.2
      unfold Single at *; rw [List.map_cons, List.nodup_cons]
      refine ⟨fun hm => ?_, this⟩
      rcases setEdge_fst hm with h | h
      · exact hp h
      · exact h'.1 h

theorem eraseFirst_mem {t : Nat} : ∀ {l : List (Nat × Nat)}, Single l → ∀ j k, (j, k) ∈ eraseFirst l t ↔ j ≠ t ∧ (j, k) ∈ l
  | [], _, j, k => by simp [eraseFirst]
  | p :: l, h, j, k => by
    have h' : p.1 ∉ l.map Prod.fst ∧ Single l := by unfold Single at h; rw [List.map_cons, List.nodup_cons] at h; exact h
    unfold eraseFirst
    split_ifs with hp
    · have hno : ∀ k', (t, k') ∉ l := fun k' hm => h'.1 (by rw [hp]; exact List.mem_map.mpr ⟨_, hm, rfl⟩)
      rw [List.mem_cons]
      constructor
      · intro h
        refine ⟨?_, .inr h⟩
        rintro rfl; exact hno k h
      · rintro ⟨h1, h | h⟩
        · rw [← h] at hp; exact absurd hp h1
        · exact h
    · rw [List.mem_cons, eraseFirst_mem h'.2, List.mem_cons]
      constructor
      · rintro (h | h)
        · refine ⟨?_, .inl h⟩
          rintro rfl; rw [← h] at hp; exact hp rfl
        · exact ⟨h.1, .inr h.2⟩
      · rintro ⟨h1, h | h⟩
        · exact .inl h
        · exact .inr ⟨h1, h⟩

theorem eraseFirst_sublist {t : Nat} : ∀ (l : List (Nat × Nat)), (eraseFirst l t).Sublist l
  | [] => List.Sublist.refl _
  | p :: l => by
    unfold eraseFirst
    split_ifs
    · exact List.sublist_cons_self _ _
    · exact List.Sublist.cons_cons _ (eraseFirst_sublist l)

theorem eraseFirst_single {t : Nat} {l : List (Nat × Nat)} (h : Single l) : Single (eraseFirst l t) :=
  List.Nodup.sublist ((eraseFirst_sublist l).map _) h

theorem unlink_spec {n : Nat} : ∀ (l : List (Nat × Nat)) (adj : Nat → List (Nat × Nat)), Single l → n ∉ l.map Prod.fst →
    ∃ adj', unlink n l adj = .ok adj' ∧ ∀ i, adj' i = if i ∈ l.map Prod.fst then eraseFirst (adj i) n else adj i
  | [], adj, _, _ => ⟨adj, rfl, fun i => by simp⟩
  | p :: l, adj, hs, hn => by
    have h' : p.1 ∉ l.map Prod.fst ∧ Single l := by unfold Single at hs; rw [List.map_cons, List.nodup_cons] at hs; exact hs
    rw [List.map_cons, List.mem_cons, not_or] at hn
    obtain ⟨adj', e, h⟩ := unlink_spec l (upd adj p.1 (eraseFirst (adj p.1) n)) h'.2 hn.2
    refine ⟨adj', ?_, ?_⟩
    · unfold unlink; rw [if_neg (fun h => hn.1 h.symm)]; exact e
    · intro i
      rw [h i, List.map_cons]
      by_cases hi : i = p.1
      · subst hi
        rw [if_neg h'.1, if_pos (by simp)]
        simp [upd]
      · have hu : upd adj p.1 (eraseFirst (adj p.1) n) i = adj i := by simp [upd, hi]
        rw [hu]
        by_cases him : i ∈ l.map Prod.fst
        · rw [if_pos him, if_pos (List.mem_cons_of_mem _ him)]
        · rw [if_neg him, if_neg (by rw [List.mem_cons, not_or]; exact ⟨hi, him⟩)]

/-! ## The data represent the graph -/

structure Rep (e : Env C) (G : Graph C) : Prop where
  pts : e.points = G.pts
  nodup : G.pts.Nodup
  ids : ∀ c i, e.ids c = some i ↔ G.pts[i]? = some c
  single : ∀ i, i < G.pts.length → Single (e.adj i)
  adj : ∀ i x, G.pts[i]? = some x → ∀ j k, (j, k) ∈ e.adj i ↔ ∃ y, G.pts[j]? = some y ∧ G.cost x y = some k
  symm : ∀ x y, G.cost x y = G.cost y x
  irrefl : ∀ x, G.cost x x = none
  sub : ∀ x y k, G.cost x y = some k → x ∈ G.pts

theorem rep_empty : Rep (C := C) empty ⟨[], fun _ _ => none⟩ :=
  ⟨rfl, List.nodup_nil, fun c i => by simp [empty], fun i h => absurd h (by simp), fun i x h => by simp at h, fun _ _ => rfl, fun _ => rfl, fun _ _ _ h => by cases h⟩

theorem Rep.inj {e : Env C} {G : Graph C} (r : Rep e G) {i j : Nat} {x : C} (h1 : G.pts[i]? = some x) (h2 : G.pts[j]? = some x) : i = j := by
  have a := (r.ids x i).mpr h1
  have b := (r.ids x j).mpr h2
  rw [a] at b; exact Option.some.inj b

theorem Rep.get {e : Env C} {G : Graph C} (r : Rep e G) {c : C} (h : c ∈ G.pts) : ∃ i, e.ids c = some i ∧ G.pts[i]? = some c ∧ i < G.pts.length := by
  obtain ⟨i, hi, rfl⟩ := List.mem_iff_getElem.mp h
  have : G.pts[i]? = some G.pts[i] := List.getElem?_eq_getElem hi
  exact ⟨i, (r.ids _ _).mpr this, this, hi⟩

theorem rep_add {e : Env C} {G : Graph C} (r : Rep e G) {c : C} (hc : c ∉ G.pts) : Rep (e.addPoint c) (G.step (.add c)) := by
  have hlen : e.points.length = G.pts.length := by rw [r.pts]
  have cost_none : ∀ y, G.cost c y = none := by
    intro y
    cases h : G.cost c y with
    | none => rfl
    | some k => exact absurd (r.sub _ _ _ h) hc
  refine ⟨?_, ?_, ?_, ?_, ?_, r.symm, r.irrefl, fun x y k h => ?_⟩
  · simp [Env.addPoint, Graph.step, r.pts]
  · simp only [Graph.step]
    exact List.nodup_append.mpr ⟨r.nodup, by simp, by simp; rintro a ha rfl; exact hc ha⟩
  · intro x i
    simp only [Env.addPoint, Graph.step, hlen]
    rw [List.getElem?_append]
    by_cases hx : x = c
    · subst hx
      rw [if_pos rfl]
      split_ifs with hi
      · constructor
        · intro h; rw [Option.some.injEq] at h; omega
        · intro h; exact absurd (List.mem_of_getElem? h) hc
      · constructor
        · intro h; rw [Option.some.injEq] at h; subst h; simp
        · intro h
          have : i - G.pts.length = 0 := by
            by_contra hne
            rw [List.getElem?_eq_none (by simp; omega)] at h; cases h
          rw [Option.some.injEq]; omega
    · rw [if_neg hx, r.ids]
      split_ifs with hi
      · rfl
      · rw [List.getElem?_eq_none (by omega)]
        constructor
        · intro h; cases h
        · intro h
          have := List.mem_of_getElem? h
          simp at this; exact absurd this hx
  · intro i hi
    simp only [Graph.step, List.length_append, List.length_singleton] at hi
    simp only [Env.addPoint, hlen, upd]
    split_ifs with h
    · simp [Single]
    · exact r.single i (by omega)
  · intro i x hx j k
    simp only [Graph.step] at hx ⊢
    simp only [Env.addPoint, hlen, upd]
    rw [List.getElem?_append] at hx
    split_ifs with h
    · subst h
      rw [if_neg (Nat.lt_irrefl _)] at hx
      simp at hx
      subst hx
      simp [cost_none]
    · have hi : i < G.pts.length := by
        by_contra hn
        rw [if_neg hn] at hx
        have : i - G.pts.length = 0 := by
          by_contra hne
          rw [List.getElem?_eq_none (by simp; omega)] at hx; cases hx
        omega
      rw [if_pos hi] at hx
      rw [r.adj i x hx]
      constructor
      · rintro ⟨y, h1, h2⟩
        refine ⟨y, ?_, h2⟩
        rw [List.getElem?_append_left]
        · exact h1
        · exact (List.getElem?_eq_some_iff.mp h1).1
      · rintro ⟨y, h1, h2⟩
        rw [List.getElem?_append] at h1
        split_ifs at h1 with hj
        · exact ⟨y, h1, h2⟩
        · exfalso
          have := List.mem_of_getElem? h1
          simp at this
          rw [r.symm, this, cost_none] at h2; cases h2
  · simp only [Graph.step] at h ⊢
    exact List.mem_append_left _ (r.sub x y k h)

theorem rep_set {e : Env C} {G : Graph C} (r : Rep e G) {c1 c2 : C} {cost : Nat} (h1 : c1 ∈ G.pts) (h2 : c2 ∈ G.pts) (hne : c1 ≠ c2) :
    ∃ e', e.setCost c1 c2 cost = .ok e' ∧ Rep e' (G.step (.set c1 c2 cost)) ∧ e'.startId = e.startId ∧ e'.goalId = e.goalId := by
  obtain ⟨i, i1, i2, i3⟩ := r.get h1
  obtain ⟨j, j1, j2, j3⟩ := r.get h2
  have hij : i ≠ j := by rintro rfl; rw [i2] at j2; exact hne (Option.some.inj j2)
  refine ⟨{ e with adj := upd (upd e.adj i (setEdge (e.adj i) j cost)) j (setEdge (upd e.adj i (setEdge (e.adj i) j cost) j) i cost) },
    by simp only [Env.setCost, i1, j1], ?_, rfl, rfl⟩
  have hadj : ∀ t, upd (upd e.adj i (setEdge (e.adj i) j cost)) j (setEdge (upd e.adj i (setEdge (e.adj i) j cost) j) i cost) t =
      if t = j then setEdge (e.adj j) i cost else if t = i then setEdge (e.adj i) j cost else e.adj t := by
    intro t
    have : upd e.adj i (setEdge (e.adj i) j cost) j = e.adj j := by simp [upd, hij.symm]
    rw [this]
    simp [upd]
  refine ⟨r.pts, r.nodup, r.ids, ?_, ?_, ?_, ?_, ?_⟩
  · intro t ht
    simp only [hadj]
    split_ifs
    · exact setEdge_single (r.single j j3)
    · exact setEdge_single (r.single i i3)
    · exact r.single t ht
  · intro t x hx s k
    simp only [hadj, Graph.step] at hx ⊢
    split_ifs with htj hti
    · subst htj
      have : x = c2 := by rw [j2] at hx; exact (Option.some.inj hx).symm
      subst this
      rw [setEdge_mem (r.single t j3), r.adj t x j2]
      constructor
      · rintro (⟨rfl, rfl⟩ | ⟨hs, y, hy, hk⟩)
        · exact ⟨c1, i2, by simp⟩
        · have hyc : y ≠ c1 := by rintro rfl; exact hs (r.inj hy i2)
          exact ⟨y, hy, by rw [if_neg]; exact hk; simp [hyc, hne.symm]⟩
      · rintro ⟨y, hy, hk⟩
        by_cases hyc : y = c1
        · subst hyc
          rw [if_pos (by simp)] at hk
          exact .inl ⟨r.inj hy i2, (Option.some.inj hk).symm⟩
        · rw [if_neg (by simp [hyc, hne.symm])] at hk
          refine .inr ⟨?_, y, hy, hk⟩
          rintro rfl; rw [i2] at hy; exact hyc (Option.some.inj hy).symm
    · subst hti
      have : x = c1 := by rw [i2] at hx; exact (Option.some.inj hx).symm
      subst this
      rw [setEdge_mem (r.single t i3), r.adj t x i2]
      constructor
      · rintro (⟨rfl, rfl⟩ | ⟨hs, y, hy, hk⟩)
        · exact ⟨c2, j2, by simp⟩
        · have hyc : y ≠ c2 := by rintro rfl; exact hs (r.inj hy j2)
          exact ⟨y, hy, by rw [if_neg]; exact hk; simp [hyc, hne]⟩
      · rintro ⟨y, hy, hk⟩
        by_cases hyc : y = c2
        · subst hyc
          rw [if_pos (by simp)] at hk
          exact .inl ⟨r.inj hy j2, (Option.some.inj hk).symm⟩
        · rw [if_neg (by simp [hyc, hne])] at hk
          refine .inr ⟨?_, y, hy, hk⟩
          rintro rfl; rw [j2] at hy; exact hyc (Option.some.inj hy).symm
    · have hx1 : x ≠ c1 := by rintro rfl; exact hti (r.inj hx i2)
      have hx2 : x ≠ c2 := by rintro rfl; exact htj (r.inj hx j2)
      rw [r.adj t x hx]
      simp [hx1, hx2]
  · intro x y
    simp only [Graph.step]
    have hiff : ((x = c1 ∧ y = c2) ∨ (x = c2 ∧ y = c1)) ↔ ((y = c1 ∧ x = c2) ∨ (y = c2 ∧ x = c1)) := by
      constructor
      · rintro (⟨a, b⟩ | ⟨a, b⟩); exact .inr ⟨b, a⟩; exact .inl ⟨b, a⟩
      · rintro (⟨a, b⟩ | ⟨a, b⟩); exact .inr ⟨b, a⟩; exact .inl ⟨b, a⟩
    rw [if_congr hiff rfl (r.symm x y)]
  · intro x
    simp only [Graph.step]
    rw [if_neg]
    · exact r.irrefl x
    · rintro (⟨a, b⟩ | ⟨a, b⟩)
      · exact hne (a.symm.trans b)
      · exact hne (b.symm.trans a)
  · intro x y k h
    simp only [Graph.step] at h ⊢
    split_ifs at h with hc
    · rcases hc with ⟨rfl, -⟩ | ⟨rfl, -⟩
      · exact h1
      · exact h2
    · exact r.sub x y k h

theorem rep_removeLast {e : Env C} {G : Graph C} (r : Rep e G) (hne : G.pts ≠ []) :
    ∃ e', e.removeLast = .ok e' ∧ Rep e' (G.step (.remove 1)) ∧ e'.startId = e.startId ∧ e'.goalId = e.goalId := by
  obtain ⟨l, c, hl⟩ : ∃ l c, G.pts = l ++ [c] := ⟨G.pts.dropLast, G.pts.getLast hne, (List.dropLast_append_getLast hne).symm⟩
  have hp : e.points = l ++ [c] := by rw [r.pts, hl]
  have hn : e.points.length - 1 = l.length := by rw [hp]; simp
  have hlc : G.pts[l.length]? = some c := by rw [hl]; simp
  have hlt : l.length < G.pts.length := by rw [hl]; simp
  have hnl : c ∉ l := by
    have := r.nodup
    rw [hl, List.nodup_append] at this
    intro h
    exact this.2.2 c h c (by simp) rfl
  have hnself : l.length ∉ (e.adj l.length).map Prod.fst := by
    intro h
    obtain ⟨⟨j, k⟩, hm, hj⟩ := List.mem_map.mp h
    dsimp only at hj; subst hj
    obtain ⟨y, hy, hk⟩ := (r.adj _ c hlc _ k).mp hm
    rw [hlc] at hy
    rw [← Option.some.inj hy, r.irrefl] at hk; cases hk
  obtain ⟨adj', ha, hadj⟩ := unlink_spec (n := l.length) (e.adj l.length) e.adj (r.single _ hlt) hnself
  have htake : G.pts.take (G.pts.length - 1) = l := by rw [hl]; simp
  have hgl : e.points.getLast? = some c := by rw [hp]; simp
  refine ⟨{ e with points := e.points.dropLast, ids := fun x => if x = c then none else e.ids x, adj := adj' },
    by simp only [Env.removeLast, hgl, hn, ha], ?_, rfl, rfl⟩
  have hget : ∀ (i : Nat) (x : C), l[i]? = some x ↔ G.pts[i]? = some x ∧ x ≠ c := by
    intro i x
    rw [hl, List.getElem?_append]
    split_ifs with hi
    · constructor
      · intro h; exact ⟨h, by rintro rfl; exact hnl (List.mem_of_getElem? h)⟩
      · exact fun h => h.1
    · rw [List.getElem?_eq_none (by omega)]
      constructor
      · intro h; cases h
      · rintro ⟨h, hxc⟩
        have := List.mem_of_getElem? h
        simp at this
        exact absurd this hxc
  -- the entry of the removed point
  have erased : ∀ (i : Nat) (x : C), G.pts[i]? = some x → ∀ j k, (j, k) ∈ adj' i ↔ (j ≠ l.length ∧ (j, k) ∈ e.adj i) := by
    intro i x hx j k
    have hi : i < G.pts.length := (List.getElem?_eq_some_iff.mp hx).1
    rw [hadj]
    split_ifs with hm
    · exact eraseFirst_mem (r.single i hi) j k
    · constructor
      · intro h
        refine ⟨?_, h⟩
        rintro rfl
        obtain ⟨y, hy, hk⟩ := (r.adj i x hx _ k).mp h
        rw [hlc] at hy
        rw [← Option.some.inj hy, r.symm] at hk
        exact hm (List.mem_map.mpr ⟨(i, k), (r.adj _ c hlc i k).mpr ⟨x, hx, hk⟩, rfl⟩)
      · exact fun h => h.2
  refine ⟨?_, ?_, ?_, ?_, ?_, ?_, ?_, ?_⟩
  · simp only [Graph.step, htake]; rw [hp]; simp
  · simp only [Graph.step, htake]
    have := r.nodup; rw [hl, List.nodup_append] at this; exact this.1
  · intro x i
    simp only [Graph.step, htake]
    rw [hget i x, ← r.ids]
    by_cases hx : x = c
    · simp [hx]
    · simp [hx]
  · intro i hi
    simp only [Graph.step, htake] at hi ⊢
    rw [hadj]
    split_ifs
    · exact eraseFirst_single (r.single i (by omega))
    · exact r.single i (by omega)
  · intro i x hx j k
    simp only [Graph.step, htake] at hx ⊢
    have hx' := (hget i x).mp hx
    rw [erased i x hx'.1 j k, r.adj i x hx'.1]
    constructor
    · rintro ⟨hj, y, hy, hk⟩
      have hyc : y ≠ c := by rintro rfl; exact hj (r.inj hy hlc)
      have := (hget j y).mpr ⟨hy, hyc⟩
      exact ⟨y, this, by rw [if_pos ⟨List.mem_of_getElem? hx, List.mem_of_getElem? this⟩]; exact hk⟩
    · rintro ⟨y, hy, hk⟩
      have hy' := (hget j y).mp hy
      rw [if_pos ⟨List.mem_of_getElem? hx, List.mem_of_getElem? hy⟩] at hk
      refine ⟨?_, y, hy'.1, hk⟩
      rintro rfl
      rw [hlc] at hy'; exact hy'.2 (Option.some.inj hy'.1).symm
  · intro x y
    simp only [Graph.step, htake]
    rw [if_congr (and_comm (a := x ∈ l) (b := y ∈ l)) (r.symm x y) rfl]
  · intro x
    simp only [Graph.step, htake]
    split_ifs
    · exact r.irrefl x
    · rfl
  · intro x y k h
    simp only [Graph.step, htake] at h ⊢
    split_ifs at h with hc
    exact hc.1

/-- removing one after the other -/
theorem remove_succ {G : Graph C} {n : Nat} :
    (G.step (.remove 1)).step (.remove n) = G.step (.remove (n + 1)) := by
  simp only [Graph.step, Graph.mk.injEq]
  have ht : (G.pts.take (G.pts.length - 1)).take ((G.pts.take (G.pts.length - 1)).length - n) = G.pts.take (G.pts.length - (n + 1)) := by
    rw [List.take_take, List.length_take]
    congr 1
    omega
  refine ⟨ht, ?_⟩
  funext x y
  simp only [ht]
  by_cases h : x ∈ G.pts.take (G.pts.length - (n + 1)) ∧ y ∈ G.pts.take (G.pts.length - (n + 1))
  · rw [if_pos h, if_pos h, if_pos]
    have sub : ∀ z, z ∈ G.pts.take (G.pts.length - (n + 1)) → z ∈ G.pts.take (G.pts.length - 1) := by
      intro z hz
      rw [← ht] at hz
      exact List.mem_of_mem_take hz
    exact ⟨sub x h.1, sub y h.2⟩
  · rw [if_neg h, if_neg h]

theorem remove_zero {G : Graph C} (hs : ∀ x y k, G.cost x y = some k → x ∈ G.pts) (hsy : ∀ x y, G.cost x y = G.cost y x) : G.step (.remove 0) = G := by
  simp only [Graph.step]
  have : G.pts.take (G.pts.length - 0) = G.pts := by simp
  rw [this]
  congr 1
  funext x y
  split_ifs with h
  · rfl
  · cases hc : G.cost x y with
    | none => rfl
    | some k => exact absurd ⟨hs x y k hc, hs y x k (by rw [hsy]; exact hc)⟩ h

theorem rep_remove : ∀ (n : Nat) {e : Env C} {G : Graph C}, Rep e G → n ≤ G.pts.length →
    ∃ e', e.removeLastPoints n = .ok e' ∧ Rep e' (G.step (.remove n)) ∧ e'.startId = e.startId ∧ e'.goalId = e.goalId
  | 0, e, G, r, _ => ⟨e, rfl, by rw [remove_zero r.sub r.symm]; exact r, rfl, rfl⟩
  | n + 1, e, G, r, h => by
    obtain ⟨e1, h1, r1, s1, g1⟩ := rep_removeLast r (by intro hn; rw [hn] at h; simp at h)
    obtain ⟨e2, h2, r2, s2, g2⟩ := rep_remove n r1 (by simp only [Graph.step, List.length_take]; omega)
    refine ⟨e2, by unfold Env.removeLastPoints; rw [h1]; exact h2, ?_, s2.trans s1, g2.trans g1⟩
    rw [← remove_succ]; exact r2

theorem run_append (ops ops' : List (Op C)) : ∀ (e : Env C), e.run (ops ++ ops') = match e.run ops with
    | .error x => .error x
    | .ok e' => e'.run ops' := by
  induction ops with
  | nil => intro e; rfl
  | cons op ops ih =>
    intro e
    simp only [List.cons_append, Env.run]
    cases e.step op with
    | error x => rfl
    | ok e1 => exact ih e1

theorem legalAll_append : ∀ (ops ops' : List (Op C)) (G : Graph C), LegalAll G (ops ++ ops') ↔ LegalAll G ops ∧ LegalAll (ops.foldl Graph.step G) ops'
  | [], ops', G => by simp [LegalAll]
  | op :: ops, ops', G => by simp only [List.cons_append, LegalAll, List.foldl_cons, legalAll_append ops ops', and_assoc]

theorem rep_run : ∀ (ops : List (Op C)) {e : Env C} {G : Graph C}, Rep e G → LegalAll G ops → ∃ e', e.run ops = .ok e' ∧ Rep e' (ops.foldl Graph.step G)
  | [], e, G, r, _ => ⟨e, rfl, r⟩
  | op :: ops, e, G, r, h => by
    have key : ∃ e1, e.step op = .ok e1 ∧ Rep e1 (G.step op) := by
      cases op with
      | add c => exact ⟨_, rfl, rep_add r h.1⟩
      | remove n => obtain ⟨e1, a, b, -⟩ := rep_remove n r h.1; exact ⟨e1, a, b⟩
      | set c1 c2 k => obtain ⟨e1, a, b, -⟩ := rep_set (cost := k) r h.1.1 h.1.2.1 h.1.2.2; exact ⟨e1, a, b⟩
      | start c =>
        obtain ⟨i, hi, -⟩ := r.get h.1
        refine ⟨{ e with startId := some i }, by simp only [Env.step, Env.setStart]; rw [hi], ⟨r.pts, r.nodup, r.ids, r.single, r.adj, r.symm, r.irrefl, r.sub⟩⟩
      | goal c =>
        obtain ⟨i, hi, -⟩ := r.get h.1
        refine ⟨{ e with goalId := some i }, by simp only [Env.step, Env.setGoal]; rw [hi], ⟨r.pts, r.nodup, r.ids, r.single, r.adj, r.symm, r.irrefl, r.sub⟩⟩
    obtain ⟨e1, h1, r1⟩ := key
    obtain ⟨e2, h2, r2⟩ := rep_run ops r1 h.2
    exact ⟨e2, by unfold Env.run; rw [h1]; exact h2, r2⟩

end Sbpl.Adj
