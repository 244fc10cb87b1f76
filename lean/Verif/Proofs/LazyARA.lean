import Verif.Proofs.LazyQueue
import Verif.Proofs.ARALoop
/-! Lazy ARA*: invariants of single operations. -/

namespace Sbpl.LazyARA
open LazySpec Heap

abbrev INF : Nat := INFINITECOST

/-- the state's information is up to date -/
def acc (st : LazyARA) (s : Nat) : Prop := st.rn s = st.num
/-- real edges in the direction of the search -/
def E (st : LazyARA) : Rel := fun p s c =>
  (s, c, true) ∈ st.nbr p ∨ ∃ lc, (s, lc, false) ∈ st.nbr p ∧ st.trueCost p s = (c : Int) ∧ 0 < c
/-- the heuristic GetState asks for -/
def hOf (st : LazyARA) (s : Nat) : Nat := if st.fwd then st.env.hGoal s else st.env.hStart s
/-- all listed edges have true costs -/
def AllTrue (st : LazyARA) : Prop := ∀ p s c f, (s, c, f) ∈ st.nbr p → f = true
/-- costs listed without evaluation are lower bounds -/
def Low (st : LazyARA) : Prop := ∀ p s lc, (s, lc, false) ∈ st.nbr p → 0 < st.trueCost p s → (lc : Int) ≤ st.trueCost p s
/-- expanded in this pass -/
def closed (st : LazyARA) (s : Nat) : Prop := st.acc s ∧ st.iterC s = st.iter

/-- only the heap's capacity can be exceeded -/
def OkOr {α : Type} (r : Except Err α) (P : α → Prop) : Prop :=
  match r with
  | .ok a => P a
  | .error e => e = .heap .full

theorem OkOr.imp {α : Type} {r : Except Err α} {P Q : α → Prop} (h : OkOr r P) (i : ∀ a, P a → Q a) : OkOr r Q := by
  cases r with
  | ok a => exact i a h
  | error e => exact h

/-- validity of a list element of state `s` -/
structure ElemOk (st : LazyARA) (s : Nat) (e : LazyElem) : Prop where
  acc : st.acc e.par
  pos : 1 ≤ e.cost
  lt : st.val e < st.v s
  tru : e.isTrue = true → ∃ c, c ≤ e.cost ∧ st.E e.par s c
  lzy : e.isTrue = false → ∃ lc, (s, lc, false) ∈ st.nbr e.par

/-- values and back pointers -/
structure Sound (st : LazyARA) (s0 : Nat) : Prop where
  startAcc : st.acc s0
  startG : st.g s0 = 0
  startT : st.isTrue s0 = true
  startV : st.v s0 = INF ∨ st.v s0 = 0
  vInf : ∀ s, st.acc s → st.v s ≤ INF
  gCase : ∀ s, st.acc s → st.g s < st.v s ∨ st.g s = st.v s ∨ st.g s = INF
  untrue : ∀ s, st.acc s → st.isTrue s = false → st.g s < st.v s ∧
    ∃ p lc, st.par s = some p ∧ st.acc p ∧ (s, lc, false) ∈ st.nbr p ∧ st.v p + 1 ≤ st.g s
  truth : ∀ s, st.acc s → st.isTrue s = true → st.g s < INF → s ≠ s0 →
    ∃ p c, st.par s = some p ∧ st.acc p ∧ st.E p s c ∧ st.v p + c ≤ st.g s
  elem : ∀ s, st.acc s → ∀ e ∈ st.lazy s, ElemOk st s e
  clear : ∀ s, st.acc s → st.isTrue s = true → st.lazy s = []
  vPtr : ∀ s, st.acc s → st.v s < INF → s ≠ s0 → ∃ p c, st.epar s = some p ∧ st.acc p ∧ st.E p s c ∧ st.v p + c ≤ st.v s

/-- OPEN and INCONS; the key and the membership of `x` are not constrained -/
structure HInv (st : LazyARA) (gl : Nat) (x : Option Nat) : Prop where
  bp : BP st.heap
  ord : Ordered st.heap
  staleH : ∀ s, ¬ st.acc s → keyOf st.heap s = none
  incAcc : ∀ s ∈ st.incons, st.acc s
  incNodup : st.incons.Nodup
  incFlag : ∀ s, st.acc s → (st.inInc s = true ↔ s ∈ st.incons)
  keys : ∀ s k, some s ≠ x → keyOf st.heap s = some k → k = st.keyFor s
  openLt : ∀ s, keyOf st.heap s ≠ none → st.g s < st.v s ∨ (s = gl ∧ st.g s = st.v s ∧ st.v s < INF)
  incLt : ∀ s ∈ st.incons, st.g s < st.v s
  ltIn : ∀ s, some s ≠ x → st.acc s → st.g s < st.v s → keyOf st.heap s ≠ none ∨ s ∈ st.incons
  opn : ∀ s, keyOf st.heap s ≠ none → st.iterC s ≠ st.iter
  inc : ∀ s ∈ st.incons, st.iterC s = st.iter
  iterLe : ∀ s, st.acc s → st.iterC s ≤ st.iter ∨ st.iterC s = SHORT - 1
  iterLt : st.iter < SHORT - 1

theorem HInv.openAcc {st : LazyARA} {gl : Nat} {x : Option Nat} (i : HInv st gl x) {s : Nat} (h : keyOf st.heap s ≠ none) : st.acc s := by
  by_contra c; exact h (i.staleH s c)

/-- The edge `u → t` of real cost `c` is accounted for. -/
def Rep (st : LazyARA) (u t c : Nat) : Prop :=
  st.acc t ∧ (st.v t ≤ st.v u + c ∨ (st.isTrue t = true ∧ st.g t ≤ st.v u + c) ∨
    (st.isTrue t = false ∧ st.par t = some u ∧ st.trueCost u t = (c : Int)) ∨
    (st.isTrue t = false ∧ ∃ e ∈ st.lazy t, st.val e ≤ st.v u + c ∧ (e.isTrue = true ∨ (e.par = u ∧ st.trueCost u t = (c : Int)))))

/-- first pass: nothing is lost.  `pend` are edges not processed yet. -/
structure Opt (wf : (LazyElem → Nat) → List LazyElem → Prop) (st : LazyARA) (s0 : Nat) (pend : Rel) : Prop where
  rep : ∀ u t c, st.acc u → st.v u < INF → st.E u t c → pend u t c ∨ Rep st u t c
  ord : ∀ s, st.acc s → st.isTrue s = false → ∀ e ∈ st.lazy s, st.g s ≤ st.val e
  wfq : ∀ s, st.acc s → wf st.val (st.lazy s)
  under : ∀ s p, st.acc s → st.isTrue s = false → st.par s = some p → 0 < st.trueCost p s → (st.g s : Int) ≤ st.v p + st.trueCost p s
  elemUnder : ∀ s, st.acc s → ∀ e ∈ st.lazy s, e.isTrue = false → 0 < st.trueCost e.par s → (e.cost : Int) ≤ st.trueCost e.par s
  once : (∀ s, st.acc s → st.v s < INF → st.iterC s = st.iter) ∨ st.AllTrue
  root : ∀ s, st.acc s → st.v s < INF → st.v s0 < INF

/-- what most steps leave alone -/
structure Fr (a b : LazyARA) : Prop where
  env : b.env = a.env
  Q : b.Q = a.Q
  fwd : b.fwd = a.fwd
  D : b.D = a.D
  num : b.num = a.num
  iter : b.iter = a.iter
  eps : b.eps = a.eps
  epsSat : b.epsSat = a.epsSat
  initEps : b.initEps = a.initEps
  finalEps : b.finalEps = a.finalEps
  decEps : b.decEps = a.decEps
  first : b.first = a.first
  goalId : b.goalId = a.goalId
  startId : b.startId = a.startId
  accM : ∀ s, a.acc s → b.acc s
  hEq : ∀ s, a.acc s → b.h s = a.h s
  rnE : ∀ s, b.rn s = a.rn s ∨ b.rn s = a.num

theorem Fr.refl (a : LazyARA) : Fr a a :=
  ⟨rfl, rfl, rfl, rfl, rfl, rfl, rfl, rfl, rfl, rfl, rfl, rfl, rfl, rfl, fun _ h => h, fun _ _ => rfl, fun _ => .inl rfl⟩

theorem Fr.trans {a b c : LazyARA} (x : Fr a b) (y : Fr b c) : Fr a c := by
  constructor
  all_goals first
    | exact fun s h => y.accM s (x.accM s h)
    | exact fun s h => (y.hEq s (x.accM s h)).trans (x.hEq s h)
    | (intro s
       have h1 := x.rnE s
       have h2 := y.rnE s
       rw [x.num] at h2
       rcases h2 with h2 | h2
       · rw [h2]; exact h1
       · exact .inr h2)
    | simp only [x.env, y.env, x.Q, y.Q, x.fwd, y.fwd, x.D, y.D, x.num, y.num, x.iter, y.iter, x.eps, y.eps, x.epsSat, y.epsSat,
        x.initEps, y.initEps, x.finalEps, y.finalEps, x.decEps, y.decEps, x.first, y.first, x.goalId, y.goalId, x.startId, y.startId]

theorem Fr.nbr {a b : LazyARA} (f : Fr a b) : b.nbr = a.nbr := by funext s; simp only [LazyARA.nbr, f.env, f.fwd]
theorem Fr.tc {a b : LazyARA} (f : Fr a b) : b.trueCost = a.trueCost := by funext s t; simp only [LazyARA.trueCost, f.env, f.fwd]
theorem Fr.hOf {a b : LazyARA} (f : Fr a b) : b.hOf = a.hOf := by funext s; simp only [LazyARA.hOf, f.env, f.fwd]
theorem Fr.E {a b : LazyARA} (f : Fr a b) : b.E = a.E := by unfold LazyARA.E; rw [f.nbr, f.tc]

/-- as `Fr`, and values of expanded states are unchanged -/
structure Step (a b : LazyARA) : Prop extends Fr a b where
  vEq : ∀ s, a.acc s → b.v s = a.v s
  itEq : ∀ s, a.acc s → b.iterC s = a.iterC s
  epEq : ∀ s, a.acc s → b.epar s = a.epar s
  new : ∀ s, ¬ a.acc s → b.acc s → b.v s = INF ∧ b.iterC s = SHORT - 1 ∧ b.h s = a.hOf s

theorem Step.refl (a : LazyARA) : Step a a :=
  ⟨Fr.refl a, fun _ _ => rfl, fun _ _ => rfl, fun _ _ => rfl, fun _ h1 h2 => absurd h2 h1⟩

theorem Step.trans {a b c : LazyARA} (x : Step a b) (y : Step b c) : Step a c := by
  refine ⟨x.toFr.trans y.toFr, ?_, ?_, ?_, ?_⟩
  · intro s h; rw [y.vEq s (x.accM s h), x.vEq s h]
  · intro s h; rw [y.itEq s (x.accM s h), x.itEq s h]
  · intro s h; rw [y.epEq s (x.accM s h), x.epEq s h]
  · intro s h1 h2
    by_cases q : b.acc s
    · rw [y.vEq s q, y.itEq s q, y.hEq s q]; exact x.new s h1 q
    · have := y.new s q h2
      rw [x.toFr.hOf] at this
      exact this

/-! ### changing the candidates of one state -/

/-- write the candidate fields of state `s` -/
def setS (st : LazyARA) (s g' : Nat) (p' : Option Nat) (t' : Bool) (l' : List LazyElem) : LazyARA :=
  { st with g := upd st.g s g', par := upd st.par s p', isTrue := upd st.isTrue s t', lazy := upd st.lazy s l' }

theorem setS_step (st : LazyARA) (s g' : Nat) (p' : Option Nat) (t' : Bool) (l' : List LazyElem) : Step st (st.setS s g' p' t' l') :=
  ⟨⟨rfl, rfl, rfl, rfl, rfl, rfl, rfl, rfl, rfl, rfl, rfl, rfl, rfl, rfl, fun _ h => h, fun _ _ => rfl, fun _ => .inl rfl⟩, fun _ _ => rfl, fun _ _ => rfl, fun _ _ => rfl,
    fun _ h1 h2 => absurd h2 h1⟩

theorem sound_setS {st : LazyARA} {s0 s g' : Nat} {p' : Option Nat} {t' : Bool} {l' : List LazyElem} (i : Sound st s0) (n0 : s ≠ s0)
    (h1 : g' < st.v s ∨ (g' = INF ∧ t' = true))
    (h2 : t' = false → ∃ p lc, p' = some p ∧ st.acc p ∧ (s, lc, false) ∈ st.nbr p ∧ st.v p + 1 ≤ g')
    (h3 : t' = true → g' < INF → ∃ p c, p' = some p ∧ st.acc p ∧ st.E p s c ∧ st.v p + c ≤ g')
    (h4 : ∀ e ∈ l', ElemOk st s e) (h5 : t' = true → l' = []) : Sound (st.setS s g' p' t' l') s0 := by
  have eo : ∀ u e, ElemOk st u e → ElemOk (st.setS s g' p' t' l') u e := fun u e h => ⟨h.acc, h.pos, h.lt, h.tru, h.lzy⟩
  refine ⟨i.startAcc, ?_, ?_, i.startV, i.vInf, ?_, ?_, ?_, ?_, ?_, i.vPtr⟩
  · show upd st.g s g' s0 = 0
    rw [upd_other _ _ (Ne.symm n0)]; exact i.startG
  · show upd st.isTrue s t' s0 = true
    rw [upd_other _ _ (Ne.symm n0)]; exact i.startT
  · intro u a
    show upd st.g s g' u < st.v u ∨ upd st.g s g' u = st.v u ∨ upd st.g s g' u = INF
    by_cases q : u = s
    · subst q
      rw [upd_same]
      rcases h1 with h | h
      · exact .inl h
      · exact .inr (.inr h.1)
    · rw [upd_other _ _ q]; exact i.gCase u a
  · intro u a hu
    have hu : upd st.isTrue s t' u = false := hu
    show upd st.g s g' u < st.v u ∧ ∃ p lc, upd st.par s p' u = some p ∧ st.acc p ∧ (u, lc, false) ∈ st.nbr p ∧ st.v p + 1 ≤ upd st.g s g' u
    by_cases q : u = s
    · subst q
      rw [upd_same] at hu
      rw [upd_same, upd_same]
      refine ⟨?_, h2 hu⟩
      rcases h1 with h | h
      · exact h
      · rw [hu] at h; exact absurd h.2 (by simp)
    · rw [upd_other _ _ q] at hu
      rw [upd_other _ _ q, upd_other _ _ q]; exact i.untrue u a hu
  · intro u a hu lt n
    have hu : upd st.isTrue s t' u = true := hu
    have lt : upd st.g s g' u < INF := lt
    show ∃ p c, upd st.par s p' u = some p ∧ st.acc p ∧ st.E p u c ∧ st.v p + c ≤ upd st.g s g' u
    by_cases q : u = s
    · subst q
      rw [upd_same] at hu lt
      rw [upd_same, upd_same]; exact h3 hu lt
    · rw [upd_other _ _ q] at hu lt
      rw [upd_other _ _ q, upd_other _ _ q]; exact i.truth u a hu lt n
  · intro u a e he
    have he : e ∈ upd st.lazy s l' u := he
    apply eo
    by_cases q : u = s
    · subst q
      rw [upd_same] at he; exact h4 e he
    · rw [upd_other _ _ q] at he; exact i.elem u a e he
  · intro u a hu
    have hu : upd st.isTrue s t' u = true := hu
    show upd st.lazy s l' u = []
    by_cases q : u = s
    · subst q
      rw [upd_same] at hu; rw [upd_same]; exact h5 hu
    · rw [upd_other _ _ q] at hu; rw [upd_other _ _ q]; exact i.clear u a hu

theorem keyFor_setS {st : LazyARA} {s g' : Nat} {p' : Option Nat} {t' : Bool} {l' : List LazyElem} {u : Nat} (q : u ≠ s) :
    (st.setS s g' p' t' l').keyFor u = st.keyFor u := by
  simp only [keyFor, setS, upd_other _ _ q]

theorem hinv_setS {st : LazyARA} {gl s g' : Nat} {p' : Option Nat} {t' : Bool} {l' : List LazyElem} {x : Option Nat} (i : HInv st gl x)
    (hx : x = none ∨ x = some s) (h1 : g' < st.v s) : HInv (st.setS s g' p' t' l') gl (some s) := by
  have ne : ∀ u : Nat, some u ≠ some s → some u ≠ x := by
    intro u hu
    rcases hx with rfl | rfl
    · simp
    · exact hu
  have nn : ∀ u : Nat, some u ≠ some s → u ≠ s := fun u hu q => hu (by rw [q])
  refine ⟨i.bp, i.ord, i.staleH, i.incAcc, i.incNodup, i.incFlag, ?_, ?_, ?_, ?_, i.opn, i.inc, i.iterLe, i.iterLt⟩
  · intro u k hu h
    rw [keyFor_setS (nn u hu)]; exact i.keys u k (ne u hu) h
  · intro u h
    show upd st.g s g' u < st.v u ∨ (u = gl ∧ upd st.g s g' u = st.v u ∧ st.v u < INF)
    by_cases q : u = s
    · subst q; rw [upd_same]; exact .inl h1
    · rw [upd_other _ _ q]; exact i.openLt u h
  · intro u h
    show upd st.g s g' u < st.v u
    by_cases q : u = s
    · subst q; rw [upd_same]; exact h1
    · rw [upd_other _ _ q]; exact i.incLt u h
  · intro u hu a lt
    have lt : upd st.g s g' u < st.v u := lt
    rw [upd_other _ _ (nn u hu)] at lt
    exact i.ltIn u (ne u hu) a lt

/-- the candidates change but not the value -/
theorem hinv_list {st : LazyARA} {gl s : Nat} {p' : Option Nat} {t' : Bool} {l' : List LazyElem} {x : Option Nat} (i : HInv st gl x) :
    HInv (st.setS s (st.g s) p' t' l') gl x := by
  have e : upd st.g s (st.g s) = st.g := by
    funext u; unfold upd; split
    · next q => rw [q]
    · rfl
  have k : ∀ u, (st.setS s (st.g s) p' t' l').keyFor u = st.keyFor u := by
    intro u; simp only [keyFor, setS, e]
  refine ⟨i.bp, i.ord, i.staleH, i.incAcc, i.incNodup, i.incFlag, ?_, ?_, ?_, ?_, i.opn, i.inc, i.iterLe, i.iterLt⟩
  · intro u k' hu h; rw [k]; exact i.keys u k' hu h
  · intro u h
    show upd st.g s (st.g s) u < st.v u ∨ (u = gl ∧ upd st.g s (st.g s) u = st.v u ∧ st.v u < INF)
    rw [e]; exact i.openLt u h
  · intro u h
    show upd st.g s (st.g s) u < st.v u
    rw [e]; exact i.incLt u h
  · intro u hu a lt
    have lt : upd st.g s (st.g s) u < st.v u := lt
    rw [e] at lt
    exact i.ltIn u hu a lt

/-- only OPEN and INCONS differ -/
def SameS (a b : LazyARA) : Prop := ∃ h l f, b = { a with heap := h, incons := l, inInc := f }

theorem SameS.step {a b : LazyARA} (x : SameS a b) : Step a b := by
  obtain ⟨h, l, f, rfl⟩ := x
  exact ⟨⟨rfl, rfl, rfl, rfl, rfl, rfl, rfl, rfl, rfl, rfl, rfl, rfl, rfl, rfl, fun _ h => h, fun _ _ => rfl, fun _ => .inl rfl⟩, fun _ _ => rfl, fun _ _ => rfl, fun _ _ => rfl,
    fun _ h1 h2 => absurd h2 h1⟩

theorem SameS.sound {a b : LazyARA} {s0 : Nat} (x : SameS a b) (i : Sound a s0) : Sound b s0 := by
  obtain ⟨h, l, f, rfl⟩ := x
  exact ⟨i.startAcc, i.startG, i.startT, i.startV, i.vInf, i.gCase, i.untrue, i.truth,
    fun s hs e he => ⟨(i.elem s hs e he).acc, (i.elem s hs e he).pos, (i.elem s hs e he).lt, (i.elem s hs e he).tru, (i.elem s hs e he).lzy⟩,
    i.clear, i.vPtr⟩

theorem SameS.opt {wf : (LazyElem → Nat) → List LazyElem → Prop} {a b : LazyARA} {s0 : Nat} {pend : Rel} (x : SameS a b) (i : Opt wf a s0 pend) :
    Opt wf b s0 pend := by
  obtain ⟨h, l, f, rfl⟩ := x
  exact ⟨i.rep, i.ord, i.wfq, i.under, i.elemUnder, i.once, i.root⟩

theorem put_spec {st : LazyARA} {gl s : Nat} (i : HInv st gl (some s)) (a : st.acc s) (lt : st.g s < st.v s) :
    OkOr (st.putInHeap s) (fun st' => HInv st' gl none ∧ SameS st st') := by
  unfold putInHeap
  -- a new heap that differs at `s` only
  have mk : ∀ h' : Heap CKey, st.iterC s ≠ st.iter → BP h' → Ordered h' → keyOf h' = upd (keyOf st.heap) s (some (st.keyFor s)) →
      HInv { st with heap := h' } gl none ∧ SameS st { st with heap := h' } := by
    intro h' ni b1 b2 b3
    have ko : ∀ u, u ≠ s → keyOf h' u = keyOf st.heap u := by intro u q; rw [b3, upd_other _ _ q]
    have ks : keyOf h' s = some (st.keyFor s) := by rw [b3, upd_same]
    refine ⟨⟨b1, b2, ?_, i.incAcc, i.incNodup, i.incFlag, ?_, ?_, i.incLt, ?_, ?_, i.inc, i.iterLe, i.iterLt⟩, h', st.incons, st.inInc, rfl⟩
    · intro u hu
      have q : u ≠ s := by rintro rfl; exact hu a
      show keyOf h' u = none
      rw [ko u q]; exact i.staleH u hu
    · intro u k _ hk
      have hk : keyOf h' u = some k := hk
      show k = st.keyFor u
      by_cases q : u = s
      · subst q; rw [ks] at hk; exact (Option.some.inj hk).symm
      · rw [ko u q] at hk; exact i.keys u k (by simp [q]) hk
    · intro u hu
      have hu : keyOf h' u ≠ none := hu
      show st.g u < st.v u ∨ _
      by_cases q : u = s
      · subst q; exact .inl lt
      · rw [ko u q] at hu; exact i.openLt u hu
    · intro u _ hu hlt
      show keyOf h' u ≠ none ∨ u ∈ st.incons
      by_cases q : u = s
      · subst q; left; rw [ks]; simp
      · rw [ko u q]; exact i.ltIn u (by simp [q]) hu hlt
    · intro u hu
      have hu : keyOf h' u ≠ none := hu
      show st.iterC u ≠ st.iter
      by_cases q : u = s
      · subst q; exact ni
      · rw [ko u q] at hu; exact i.opn u hu
  split
  next ni =>
    split
    next ix =>
      cases e : st.heap.update s (st.keyFor s) with
      | error e => exact absurd ((update_ok_iff st.heap s _).mpr (by rw [ne_eq, ARA.keyOf_none]; exact ix)) (by rw [e]; simp)
      | ok h' =>
        obtain ⟨b1, b2, _, b4, _⟩ := update_spec i.bp i.ord e
        exact mk h' ni b1 b4 b2
    next ix =>
      have ix : st.heap.idx s = 0 := by simpa using ix
      cases e : st.heap.insert s (st.keyFor s) with
      | error e => exact congrArg Err.heap (ARA.heap_insert_err (ARA.keyOf_none.mpr ix) e)
      | ok h' =>
        obtain ⟨b1, b2, _, b4, _⟩ := insert_spec i.bp e
        exact mk h' ni b1 (b4 i.ord) b2
  next ni =>
    have ni : st.iterC s = st.iter := Decidable.not_not.mp ni
    have ns : keyOf st.heap s = none := by
      by_contra h; exact i.opn s h ni
    have kk : ∀ u k, keyOf st.heap u = some k → k = st.keyFor u := by
      intro u k hk
      have q : u ≠ s := by rintro rfl; rw [ns] at hk; cases hk
      exact i.keys u k (by simp [q]) hk
    split
    next fl =>
      refine ⟨⟨i.bp, i.ord, i.staleH, i.incAcc, i.incNodup, i.incFlag, fun u k _ => kk u k, i.openLt, i.incLt, ?_, i.opn, i.inc, i.iterLe, i.iterLt⟩,
        st.heap, st.incons, st.inInc, rfl⟩
      intro u _ hu hlt
      by_cases q : u = s
      · subst q; right; exact (i.incFlag u a).mp fl
      · exact i.ltIn u (by simp [q]) hu hlt
    next fl =>
      have nm : s ∉ st.incons := fun h => fl ((i.incFlag s a).mpr h)
      refine ⟨⟨i.bp, i.ord, i.staleH, ?_, ?_, ?_, fun u k _ => kk u k, i.openLt, ?_, ?_, i.opn, ?_, i.iterLe, i.iterLt⟩,
        st.heap, s :: st.incons, upd st.inInc s true, rfl⟩
      · intro u hu
        rcases List.mem_cons.mp hu with rfl | h
        · exact a
        · exact i.incAcc u h
      · exact List.nodup_cons.mpr ⟨nm, i.incNodup⟩
      · intro u hu
        show upd st.inInc s true u = true ↔ u ∈ s :: st.incons
        by_cases q : u = s
        · subst q; simp
        · rw [upd_other _ _ q, i.incFlag u hu]; simp [q]
      · intro u hu
        rcases List.mem_cons.mp hu with rfl | h
        · exact lt
        · exact i.incLt u h
      · intro u _ hu hlt
        show keyOf st.heap u ≠ none ∨ u ∈ s :: st.incons
        by_cases q : u = s
        · subst q; right; simp
        · rcases i.ltIn u (by simp [q]) hu hlt with h | h
          · exact .inl h
          · exact .inr (List.mem_cons_of_mem _ h)
      · intro u hu
        rcases List.mem_cons.mp hu with rfl | h
        · exact ni
        · exact i.inc u h

end Sbpl.LazyARA
